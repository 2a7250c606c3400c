import Verif.MachineMono
/-!
# A build without checks does not panic by itself
-/

namespace Neure

set_option linter.unusedSectionVars false
set_option linter.unusedSimpArgs false

variable {ι β α : Type} [Item ι] {G : Rules ι β} {d : List ι}

/-- Not a panic. -/
def NP (x : Option (Res α)) : Prop := x ≠ some .panic

/-- Not a panic. -/
def NPO (x : Option (Out α)) : Prop := x ≠ some .panic

theorem np_ok {a : α} {o : Nat} : NP (some (.ok a o)) := by intro h; cases h

theorem np_err {e : Error} {o : Nat} : NP (some (.err e o) : Option (Res α)) := by intro h; cases h

theorem np_caseR {x : Option (Res Span)} {k : Span → Nat → Option (Res α)}
    {ke : Error → Nat → Option (Res α)} (hx : NP x) (hk : ∀ s o, NP (k s o)) (he : ∀ e o, NP (ke e o)) :
    NP (caseR x k ke) := by
  rcases x with _ | (_ | _ | _)
  · intro h; cases h
  · exact hk _ _
  · exact he _ _
  · exact absurd rfl hx

theorem np_caseO {γ : Type} {x : Option (Out γ)} {k : γ → Option (Res α)} {ke : Error → Option (Res α)}
    (hx : NPO x) (hk : ∀ a, NP (k a)) (he : ∀ e, NP (ke e)) : NP (caseO x k ke) := by
  rcases x with _ | (_ | _ | _)
  · intro h; cases h
  · exact hk _
  · exact he _
  · exact absurd rfl hx

theorem np_ite {c : Prop} [Decidable c] {x y : Option (Res α)} (hx : NP x) (hy : NP y) :
    NP (if c then x else y) := by split <;> assumption

theorem rel_add (x y : Nat) : ∃ v, Build.release.add x y = some v := by
  unfold Build.add
  split
  · exact ⟨_, rfl⟩
  · exact ⟨_, rfl⟩

theorem rel_sub (x y : Nat) : ∃ v, Build.release.sub x y = some v := by
  unfold Build.sub
  split
  · exact ⟨_, rfl⟩
  · exact ⟨_, rfl⟩

theorem rel_mul (x y : Nat) : ∃ v, Build.release.mul x y = some v := by
  unfold Build.mul
  split
  · exact ⟨_, rfl⟩
  · exact ⟨_, rfl⟩

theorem np_op {r : Option Nat} (h : ∃ v, r = some v) {k : Nat → Option (Res α)} (hk : ∀ v, NP (k v)) :
    NP (opK r k) := by
  obtain ⟨v, rfl⟩ := h
  exact hk v

theorem rel_addAssign (s t : Span) : ∃ v, s.addAssignM .release t = some v := by
  unfold Span.addAssignM
  obtain ⟨a, ha⟩ := rel_add t.len t.beg
  obtain ⟨c, hc⟩ := rel_add s.beg s.len
  obtain ⟨e, he⟩ := rel_sub a c
  obtain ⟨f, hf⟩ := rel_add s.len e
  have hb : Build.release.debugAssertions = false := rfl
  exact ⟨⟨s.beg, f⟩, by simp [ha, hc, he, hf, hb]⟩

theorem np_add {s t : Span} {k : Span → Option (Res α)} (hk : ∀ v, NP (k v)) : NP (addM .release s t k) := by
  obtain ⟨v, hv⟩ := rel_addAssign s t
  unfold addM
  rw [hv]
  exact hk v

theorem np_rem {o : Nat} {k : Nat → Option (Res α)} (hk : ∀ v, NP (k v)) : NP (remM .release d o k) :=
  np_op (rel_sub _ _) hk

theorem np_origSub (o n : Nat) : origSubM .release d o n ≠ .panic := by
  unfold origSubM
  obtain ⟨v, hv⟩ := rel_add o n
  rw [hv]
  simp only
  cases getRange d o v with
  | none => intro h; cases h
  | some r => intro h; cases h

theorem np_origAt (o : Nat) : origAtM .release d o ≠ .panic := by
  unfold origAtM
  split
  · obtain ⟨v, hv⟩ := rel_sub (blen d) o
    rw [hv]
    exact np_origSub o v
  · cases dropB d o with
    | none => intro h; cases h
    | some r => intro h; cases h

theorem np_peek (o : Nat) : NPO (some (peekM .release d o)) := by
  unfold peekM
  cases h : origAtM .release d o with
  | panic => exact absurd h (np_origAt o)
  | ok l => intro h; cases h
  | err e => intro h; cases h

theorem np_spanInc (o n : Nat) : NP (spanIncM .release o n) := np_op (rel_add _ _) fun _ => np_ok

theorem rel_calc (x y : Option Nat) (r : Nat) : ∃ v, calcLengthM .release x y r = some v := by
  cases x with
  | none => exact ⟨0, rfl⟩
  | some v => exact rel_sub _ _

theorem np_span {o : Nat} {x : Option Nat} (h : ∃ v, x = some v) : NP (spanM .release o x) :=
  np_op h fun _ => np_spanInc _ _

section Leaves

variable {mt : List ι → Pat ι β → Nat → Option (Res Span)} {c : Cond ι β} (hc : c.NoPanic)
  (hm : ∀ q, c.Has q → ∀ (d : List ι) o, NP (mt d q o))
include hc hm

theorem np_check (o : Nat) (pr : Nat × ι) : NPO (checkM .release mt d o c pr) := by
  cases c with
  | empty => intro h; cases h
  | fn f => intro h; exact hc d o pr (Option.some.inj h)
  | regex p =>
    obtain ⟨v, hv⟩ := rel_add o pr.1
    simp only [checkM, hv]
    cases h : origAtM .release d v with
    | panic => exact absurd h (np_origAt v)
    | err e => intro h; cases h
    | ok d' =>
      simp only
      have := hm p rfl d' 0
      generalize mt d' p 0 = r at this
      rcases r with _ | (_ | _ | _)
      · intro h; cases h
      · intro h; cases h
      · intro h; cases h
      · exact absurd rfl this

theorem np_test (o : Nat) (u : Neu ι) (pr : Nat × ι) : NPO (testItemM .release mt d o u c pr) := by
  unfold testItemM
  split
  · exact np_check hc hm o pr
  · intro h; cases h

end Leaves

theorem np_scanM {test : Nat × ι → Option (Out Bool)} (ht : ∀ pr, NPO (test pr)) (more : Nat → Bool) :
    ∀ (it : List (Nat × ι)) (cnt : Nat) (beg : Option Nat), NPO (scanM .release test more cnt beg it)
  | [], _, _ => by intro h; cases h
  | pr :: it, cnt, beg => by
    rw [scanM]
    split
    · have := ht pr
      generalize test pr = r at this
      rcases r with _ | (t | _ | _)
      · intro h; cases h
      · cases t
        · intro h; cases h
        · obtain ⟨v, hv⟩ := rel_add cnt 1
          simp only [hv]
          exact np_scanM ht more it v _
      · intro h; cases h
      · exact absurd rfl this
    · intro h; cases h

theorem np_scan {test : Nat × ι → Option (Out Bool)} (ht : ∀ pr, NPO (test pr)) (more : Nat → Bool) :
    ∀ (it : List (Nat × ι)) (cnt : Nat) (beg : Option Nat), NPO (scan test more cnt beg it)
  | [], _, _ => by intro h; cases h
  | pr :: it, cnt, beg => by
    rw [scan]
    split
    · have := ht pr
      generalize test pr = r at this
      rcases r with _ | (t | _ | _)
      · intro h; cases h
      · cases t
        · intro h; cases h
        · exact np_scan ht more it _ _
      · intro h; cases h
      · exact absurd rfl this
    · intro h; cases h

section Units

variable {mt : List ι → Pat ι β → Nat → Option (Res Span)} {c : Cond ι β} (hc : c.NoPanic)
  (hm : ∀ q, c.Has q → ∀ (d : List ι) o, NP (mt d q o)) (u : Neu ι) (o : Nat)
include hc hm

theorem np_once : NP (onceM .release mt d u c o) := by
  refine np_caseO (np_peek o) (fun it => np_rem fun rem => ?_) fun e => np_err
  cases it with
  | nil => exact np_err
  | cons pr it' =>
    exact np_caseO (np_test hc hm _ _ _) (fun t => np_ite (np_span (rel_calc _ _ _)) np_err) fun e => np_err

theorem np_optU : NP (optUM .release mt d u c o) := by
  refine np_rem fun rem => np_caseO (np_peek o) (fun it => ?_) fun e => np_ok
  cases it with
  | nil => exact np_ok
  | cons pr it' =>
    exact np_caseO (np_test hc hm _ _ _) (fun t => np_ite (np_span (rel_calc _ _ _)) np_ok) fun e => np_err

theorem np_many0 : NP (many0M .release mt d u c o) := by
  refine np_rem fun rem => np_caseO (np_peek o) (fun it => ?_) fun e => np_ok
  refine np_caseO (np_scan (np_test hc hm _ _) _ _ _ _) (fun s => ?_) fun e => np_err
  cases s.beg with
  | none => exact np_ok
  | some v => exact np_span (rel_calc _ _ _)

theorem np_many1 : NP (many1M .release mt d u c o) := by
  refine np_caseO (np_peek o) (fun it => np_rem fun rem => ?_) fun e => np_err
  refine np_caseO (np_scan (np_test hc hm _ _) _ _ _ _) (fun s => ?_) fun e => np_err
  cases s.beg with
  | none => exact np_err
  | some v => exact np_span (rel_calc _ _ _)

theorem np_between (m n : Nat) : NP (betweenM .release mt d m n u c o) := by
  refine np_caseO (np_peek o) (fun it => np_rem fun rem => np_op (rel_mul _ _) fun need => ?_) fun e => np_err
  refine np_ite (np_caseO (np_scanM (np_test hc hm _ _) _ _ _ _) (fun s => ?_) fun e => np_err) np_err
  exact np_ite (np_span (rel_calc _ _ _)) np_err

theorem np_times (r : CRange) : NP (timesM .release mt d r u c o) := by
  refine np_caseO (np_peek o) (fun it => np_rem fun rem => np_op ?_ fun need => ?_) fun e => np_err
  · unfold neededM
    cases r.lo with
    | incl m => exact rel_mul _ _
    | excl m => exact rel_mul _ _
    | unb => exact ⟨0, rfl⟩
  · refine np_ite (np_caseO (np_scanM (np_test hc hm _ _) _ _ _ _) (fun s => ?_) fun e => np_err) np_err
    exact np_ite (np_span (rel_calc _ _ _)) np_err

theorem np_thenU (v : Neu ι) : NP (thenUM .release mt d u v c o) := by
  refine np_caseO (np_peek o) (fun it => np_rem fun rem => np_op (rel_add _ _) fun need => ?_) fun e => np_err
  refine np_ite ?_ np_err
  rcases it with _ | ⟨f, _ | ⟨s, it'⟩⟩
  · exact np_err
  · exact np_err
  · refine np_caseO (np_test hc hm _ _ _) (fun t => np_ite ?_ np_err) fun e => np_err
    exact np_caseO (np_test hc hm _ _ _) (fun t => np_ite (np_span (rel_calc _ _ _)) np_err) fun e => np_err

end Units

theorem np_finish {ok : Nat → Bool} {e : Error} {beg cnt o : Nat} {t : Span} : NP (finish ok e beg cnt t o) := by
  unfold finish
  exact np_ite np_ok np_err

section Loops

variable {mt : Pat ι β → Nat → Option (Res Span)} {p : Pat ι β} (hp : ∀ o, NP (mt p o))
include hp

theorem np_rep {more : Nat → Bool} {fin : Nat → Span → Nat → Option (Res Span)}
    (hf : ∀ c t o, NP (fin c t o)) : ∀ (n cnt : Nat) (t : Span) (o : Nat),
      NP (repM .release mt p more fin n cnt t o)
  | 0, _, _, _ => by intro h; cases h
  | n + 1, cnt, t, o => by
    rw [repM]
    exact np_ite (np_caseR (hp o) (fun s o' => np_add fun t' => np_op (rel_add _ _) fun c' =>
      np_rep hf n c' t' o') fun e o' => hf _ _ _) (hf _ _ _)

theorem np_sep {s : Pat ι β} (hs : ∀ o, NP (mt s o)) {skip : Bool} {more : Nat → Bool}
    {fin : Nat → Span → Nat → Option (Res Span)} (hf : ∀ c t o, NP (fin c t o)) :
    ∀ (n cnt : Nat) (t : Span) (o : Nat), NP (sepM .release mt p s skip more fin n cnt t o)
  | 0, _, _, _ => by intro h; cases h
  | n + 1, cnt, t, o => by
    rw [sepM]
    refine np_ite (np_caseR (hp o) (fun ps o' => ?_) fun e o' => hf _ _ _) (hf _ _ _)
    refine np_caseR (hs o') (fun ss o'' => np_op (rel_add _ _) fun c' => np_add fun t1 => np_add fun t2 =>
      np_sep hs hf n c' t2 o'') fun e o'' => ?_
    exact np_ite (np_op (rel_add _ _) fun c' => np_add fun t1 => hf _ _ _) (hf _ _ _)

end Loops

theorem np_choice {mt : Pat ι β → Nat → Option (Res Span)} {e : Error} {beg : Nat} :
    ∀ (items : List (Pat ι β × Option (Val β))) (o : Nat), (∀ it ∈ items, ∀ o, NP (mt it.1 o)) →
      NP (choiceLoop mt e beg items o)
  | [], _, _ => np_err
  | it :: rest, o, h => by
    unfold choiceLoop
    exact np_caseR (h _ (.head _) _) (fun s o' => np_ok) fun _ _ =>
      np_choice rest _ fun it hit => h it (.tail _ hit)

theorem np_ltm {mt : Pat ι β → Nat → Option (Res Span)} {e : Error} {beg : Nat} :
    ∀ (items : List (Pat ι β × Option (Val β))) (best : Option Span) (o : Nat),
      (∀ it ∈ items, ∀ o, NP (mt it.1 o)) → NP (ltmLoop mt e beg items best o)
  | [], best, o, _ => by
    unfold ltmLoop
    cases best with
    | none => exact np_err
    | some s => exact np_ok
  | it :: rest, best, o, h => by
    unfold ltmLoop
    exact np_caseR (h _ (.head _) _) (fun s o' => np_ltm rest _ _ fun it hit => h it (.tail _ hit)) fun _ _ =>
      np_ltm rest _ _ fun it hit => h it (.tail _ hit)

theorem np_step {fuel : Nat} {mt : List ι → Pat ι β → Nat → Option (Res Span)}
    {pr : Pat ι β → Nat → Option (Res Span)} {p : Pat ι β} (hp : All G Calm p)
    (hmt : ∀ q, All G Calm q → ∀ (d : List ι) o, NP (mt d q o))
    (hpr : ∀ q, All G Calm q → ∀ o, NP (pr q o)) (d : List ι) (o : Nat) :
    NP (stepM .release G fuel mt pr d p o) := by
  have hself := hp.self
  have hm : ∀ q, Child G q p → ∀ (d : List ι) o, NP (mt d q o) := fun q hq => hmt q (hp.child hq)
  have hseq : ∀ x y, Child G x p → Child G y p → NP
      (caseR (mt d x o)
        (fun s1 o1 => caseR (mt d y o1)
          (fun s2 o2 => addM .release s1 s2 fun s => some (.ok s o2)) (fun e _ => some (.err e o)))
        (fun e _ => some (.err e o))) := fun x y hx hy =>
    np_caseR (hm x hx d o) (fun s1 o1 => np_caseR (hm y hy d o1) (fun s2 o2 => np_add fun s => np_ok)
      fun e _ => np_err) fun e _ => np_err
  cases p with
  | empty => exact np_ok
  | fail => exact np_err
  | start => exact np_ite (np_spanInc _ _) np_err
  | anchorEnd => exact np_ite (np_spanInc _ _) np_err
  | consume n => exact np_rem fun rem => np_ite (np_spanInc _ _) np_err
  | consumeAll => exact np_spanInc _ _
  | lit l =>
    refine np_rem fun rem => np_ite (np_caseO ?_ (fun rest => np_ite (np_spanInc _ _) np_err) fun e => np_err) np_err
    intro h
    exact np_origAt o (Option.some.inj h)
  | native f => intro h; exact hself d o (Option.some.inj h)
  | once u c => exact np_once hself (fun q hq => hm q hq) u o
  | many1 u c => exact np_many1 hself (fun q hq => hm q hq) u o
  | optU u c => exact np_optU hself (fun q hq => hm q hq) u o
  | many0 u c => exact np_many0 hself (fun q hq => hm q hq) u o
  | between m n u c => exact np_between hself (fun q hq => hm q hq) u o m n
  | times r u c => exact np_times hself (fun q hq => hm q hq) u o r
  | thenU u v c => exact np_thenU hself (fun q hq => hm q hq) u o v
  | assert q value =>
    exact np_caseR (hm q rfl d o) (fun s o' => np_ite np_ok np_err) fun e o' => np_ite np_err np_ok
  | thn x y => exact hseq x y (.inl rfl) (.inr rfl)
  | pre x y => exact hseq x y (.inl rfl) (.inr rfl)
  | suf x y => exact hseq x y (.inl rfl) (.inr rfl)
  | ifThen x t y =>
    exact np_caseR (hm x (.inl rfl) d o) (fun s1 o1 => np_caseR (hm t (.inr (.inl rfl)) d o1)
      (fun s2 o2 => np_add fun s12 => np_caseR (hm y (.inr (.inr rfl)) d o2)
        (fun s3 o3 => np_add fun s => np_ok) fun e _ => np_err) fun e _ => np_ok) fun e _ => np_err
  | enclose x y z =>
    exact np_caseR (hm x (.inl rfl) d o) (fun s1 o1 => np_caseR (hm y (.inr (.inl rfl)) d o1)
      (fun s2 o2 => np_add fun s12 => np_caseR (hm z (.inr (.inr rfl)) d o2)
        (fun s3 o3 => np_add fun s => np_ok) fun e _ => np_err) fun e _ => np_err) fun e _ => np_err
  | sepOnce x y z =>
    exact np_caseR (hm x (.inl rfl) d o) (fun s1 o1 => np_add fun t1 => np_caseR (hm y (.inr (.inl rfl)) d o1)
      (fun s2 o2 => np_add fun s12 => np_caseR (hm z (.inr (.inr rfl)) d o2)
        (fun s3 o3 => np_add fun s => np_ok) fun e _ => np_err) fun e _ => np_err) fun e _ => np_err
  | or x y =>
    exact np_caseR (hm x (.inl rfl) d o) (fun s o1 => np_ok) fun e _ =>
      np_caseR (hm y (.inr rfl) d o) (fun s o1 => np_ok) fun e _ => np_err
  | longest x y =>
    have hpick : ∀ s : Span, NP (opK (Build.release.add o s.len) fun o' => some (.ok s o')) :=
      fun s => np_op (rel_add _ _) fun _ => np_ok
    exact np_caseR (hm x (.inl rfl) d o) (fun l _ => np_caseR (hm y (.inr rfl) d o)
      (fun r _ => np_ite (hpick l) (hpick r)) fun _ _ => hpick l) fun _ _ =>
        np_caseR (hm y (.inr rfl) d o) (fun r _ => hpick r) fun e _ => np_err
  | opt q => exact np_caseR (hm q rfl d o) (fun s o1 => np_ok) fun e _ => np_ok
  | choice e items => exact np_choice items o fun it hit => hm it.1 ⟨it, hit, rfl⟩ d
  | ltm e items => exact np_ltm items none o fun it hit => hm it.1 ⟨it, hit, rfl⟩ d
  | rep q r => exact np_rep (hm q rfl d) (fun _ _ _ => np_finish) _ _ _ _
  | rep2 q m n => exact np_rep (hm q rfl d) (fun _ _ _ => np_finish) _ _ _ _
  | collect q min => exact np_rep (hm q rfl d) (fun _ _ _ => np_finish) _ _ _ _
  | sep q s skip min => exact np_sep (hm q (.inl rfl) d) (hm s (.inr rfl) d) (fun _ _ _ => np_finish) _ _ _ _
  | sep2 q s skip m n => exact np_sep (hm q (.inl rfl) d) (hm s (.inr rfl) d) (fun _ _ _ => np_finish) _ _ _ _
  | sepCollect q s skip min =>
    exact np_sep (hm q (.inl rfl) d) (hm s (.inr rfl) d) (fun _ _ _ => np_finish) _ _ _ _
  | branch test x y =>
    refine np_caseO ?_ (fun t => ?_) fun e => np_err
    · intro h; exact hself d o (Option.some.inj h)
    · refine np_caseR (hm _ ?_ d o) (fun s o1 => np_ok) fun e _ => np_err
      cases t
      · exact .inr rfl
      · exact .inl rfl
  | map q f => exact hm q rfl d o
  | pat q => exact hm q rfl d o
  | build q f =>
    refine np_caseR (hm q (.inl rfl) d o) (fun s o1 => ?_) fun e _ => np_err
    cases hfe : f d o1 s with
    | panic => exact absurd hfe (hself d o1 s)
    | err e o2 => exact np_err
    | ok p' o2 =>
      exact np_caseR (hm p' (.inr ⟨d, o1, s, o2, hfe⟩) d o2) (fun s' o3 => np_ok) fun e _ => np_err
  | dthen q f => exact hself.elim
  | cell i =>
    simp only [step, stepM]
    cases hg : G i with
    | none => exact np_err
    | some q => exact hpr q (hp.child hg) o

theorem np_parse : ∀ (n : Nat) (pol : Option (Pat ι β)), CalmPol G pol → ∀ (p : Pat ι β), All G Calm p →
    ∀ (d : List ι) (o : Nat), NP (parseM .release G n pol d p o)
  | 0, _, _, _, _, _, _ => by intro h; cases h
  | n + 1, pol, hpol, p, hp, d, o => by
    refine np_step hp (fun q hq d o => ?_) (fun q hq o => np_parse n pol hpol q hq d o) d o
    unfold matWith
    cases pol with
    | none => exact np_parse n none hpol q hq d o
    | some w =>
      exact np_caseR (np_parse n none (fun _ h => by cases h) w (hpol w rfl) d o)
        (fun _ o' => np_parse n (some w) hpol q hq d o')
        (fun e o' => np_err)

end Neure
