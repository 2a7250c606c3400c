import Verif.CtorLemmas
import Verif.CoreInv
/-!
# Matching and constructing run in lockstep (for C19, C20)
-/

namespace Neure

set_option linter.unusedSectionVars false

variable {ι β σ : Type} [Item ι] {G : Rules ι β} {H : Handler ι β σ} {d : List ι}

theorem CAll.self {P : Pat ι β → Prop} {p : Pat ι β} (h : CAll G P p) : P p := h p .refl

theorem CDesc.trans {p q r : Pat ι β} (h' : CDesc G p q) (h : CDesc G q r) : CDesc G p r := by
  induction h with
  | refl => exact h'
  | step _ hc ih => exact .step ih hc

theorem CAll.child {P : Pat ι β → Prop} {p q : Pat ι β} (h : CAll G P p) (hc : CChild G q p) :
    CAll G P q := fun r hr => h r ((CDesc.step .refl hc).trans hr)

theorem CAll.mono {P Q : Pat ι β → Prop} {p : Pat ι β} (h : CAll G P p) (hPQ : ∀ q, P q → Q q) :
    CAll G Q p := fun q hq => hPQ q (h q hq)

theorem CAll.intro {P : Pat ι β → Prop} {p : Pat ι β} (h : P p)
    (hc : ∀ q, CChild G q p → CAll G P q) : CAll G P p := by
  intro q hq
  have key : q = p ∨ ∃ c, CChild G c p ∧ CDesc G c q := by
    induction hq with
    | refl => exact .inl rfl
    | step hd hch ih =>
      rcases ih with rfl | ⟨c, h1, h2⟩
      · exact .inr ⟨_, hch, .refl⟩
      · exact .inr ⟨c, h1, .step h2 hch⟩
  rcases key with rfl | ⟨c, h1, h2⟩
  · exact h
  · exact hc c h1 q h2

/-- What is constructed is a component. -/
theorem CChild.child {p q : Pat ι β} (h : CChild G q p) : Child G q p := by
  cases p <;> simp only [CChild, Child] at h ⊢ <;> first | exact h | exact h.elim | simp [h] | grind

theorem CDesc.desc {p q : Pat ι β} (h : CDesc G p q) : Desc G p q := by
  induction h with
  | refl => exact .refl
  | step _ hc ih => exact .step ih hc.child

theorem All.call {P : Pat ι β → Prop} {p : Pat ι β} (h : All G P p) : CAll G P p :=
  fun q hq => h q hq.desc

/-- Same kind of result, same error, same offset. -/
def Same : Option (CRes σ (Val β)) → Option (Res Span) → Prop
  | none, none => True
  | some (.ok _ _ o), some (.ok _ o') => o = o'
  | some (.err e _ o), some (.err e' o') => e = e' ∧ o = o'
  | _, _ => False

/-- The construction `c` agrees with the match `m`, unless one of them panics
(the construction only if `x`). -/
def Sim (x : Prop) (c : Option (CRes σ (Val β))) (m : Option (Res Span)) : Prop :=
  (x ∧ c = some .panic) ∨ m = some .panic ∨ Same c m

variable {x : Prop}

theorem sim_caseR {c : Option (CRes σ (Val β))} {m : Option (Res Span)}
    {k : Val β → σ → Nat → Option (CRes σ (Val β))} {kE : Error → σ → Nat → Option (CRes σ (Val β))}
    {k' : Span → Nat → Option (Res Span)} {kE' : Error → Nat → Option (Res Span)}
    (h : Sim x c m)
    (hk : ∀ v st s o, c = some (.ok v st o) → m = some (.ok s o) → Sim x (k v st o) (k' s o))
    (hE : ∀ e st o, c = some (.err e st o) → m = some (.err e o) → Sim x (kE e st o) (kE' e o)) :
    Sim x (caseC c k kE) (caseR m k' kE') := by
  rcases h with ⟨hx, rfl⟩ | rfl | h
  · exact .inl ⟨hx, rfl⟩
  · exact .inr (.inl rfl)
  · rcases c with _ | c <;> rcases m with _ | m
    · exact .inr (.inr trivial)
    · exact h.elim
    · cases c <;> exact h.elim
    · rcases c with ⟨v, st, o⟩ | ⟨e, st, o⟩ | _ <;> rcases m with ⟨s, o'⟩ | ⟨e', o'⟩ | _
      all_goals try exact h.elim
      · obtain rfl : o = o' := h
        exact hk v st s o rfl rfl
      · obtain ⟨rfl, rfl⟩ : e = e' ∧ o = o' := h
        exact hE e st o rfl rfl

theorem sim_caseM {m : Option (Res Span)}
    {k : Span → Nat → Option (CRes σ (Val β))} {kE : Error → Nat → Option (CRes σ (Val β))}
    {k' : Span → Nat → Option (Res Span)} {kE' : Error → Nat → Option (Res Span)}
    (hk : ∀ s o, m = some (.ok s o) → Sim x (k s o) (k' s o))
    (hE : ∀ e o, m = some (.err e o) → Sim x (kE e o) (kE' e o)) :
    Sim x (caseM m k kE) (caseR m k' kE') := by
  rcases m with _ | ⟨s, o⟩ | ⟨e, o⟩ | _
  · exact .inr (.inr trivial)
  · exact hk s o rfl
  · exact hE e o rfl
  · exact .inr (.inl rfl)

theorem sim_addK {s t : Span} {c : Option (CRes σ (Val β))} {k : Span → Option (Res Span)}
    (h : ∀ u, Sim x c (k u)) : Sim x c (addK s t k) := by
  unfold addK; split
  · exact .inr (.inl rfl)
  · exact h _

theorem sim_ok {v : Val β} {st : σ} {s : Span} {o : Nat} :
    Sim x (some (.ok v st o)) (some (.ok s o)) := .inr (.inr rfl)

theorem sim_err {e : Error} {st : σ} {o : Nat} :
    Sim (β := β) x (some (.err e st o)) (some (.err e o)) := .inr (.inr ⟨rfl, rfl⟩)

theorem sim_finish {ok : Nat → Bool} {e : Error} {beg cnt : Nat} {w : List (Val β) → Val β}
    {vals : List (Val β)} {t : Span} {st : σ} {o : Nat} :
    Sim x (conFinish ok e beg w cnt vals st o) (finish ok e beg cnt t o) := by
  unfold conFinish finish; split
  · exact sim_ok
  · exact sim_err

/-- An invariant of matching: from offsets satisfying `V`, patterns satisfying
`W` reach offsets satisfying `V` and return spans satisfying `T`. -/
structure Keeps (G : Rules ι β) (d : List ι) (V : Nat → Prop) (W : Pat ι β → Prop)
    (T : Span → Nat → Prop) : Prop where
  child : ∀ {p q}, W p → Child G q p → W q
  ok : ∀ {n p o s o'}, W p → V o → parse G n none d p o = some (.ok s o') → V o' ∧ T s o'
  err : ∀ {n p o e o'}, W p → V o → parse G n none d p o = some (.err e o') → V o'

/-- The handler succeeds on the spans allowed by `T`. -/
def Handler.TotalOn (H : Handler ι β σ) (d : List ι) (T : Span → Nat → Prop) : Prop :=
  ∀ o s st, T s o → ∃ b st', H d o s st = (.ok b, st')

theorem Keeps.trivial : Keeps G d (fun _ => True) (fun _ => True) (fun _ _ => True) :=
  ⟨fun _ _ => True.intro, fun _ _ _ => ⟨True.intro, True.intro⟩, fun _ _ _ => True.intro⟩

theorem Keeps.valid : Keeps G d (Valid d) (All G (Bounded G none))
    (fun s _ => Valid d s.beg ∧ Valid d (s.beg + s.len)) := by
  refine ⟨fun h hc => h.child hc, fun {n p o s o'} hp ho h => ?_, fun {n p o e o'} hp ho h => ?_⟩
  · have := bound_inv G n none (fun _ h => by cases h) d p o ho hp _ h
    simp only [OnBound] at this
    exact ⟨this.2.2, this.1, this.2.1⟩
  · have := bound_inv G n none (fun _ h => by cases h) d p o ho hp _ h
    simpa only [OnBound] using this

section

variable {V : Nat → Prop} {T : Span → Nat → Prop}

theorem sim_invoke {st : σ} {m : Option (Res Span)} (hH : H.TotalOn d T)
    (hm : ∀ s o, m = some (.ok s o) → T s o) : Sim x (invokeK H d st m) m := by
  rcases m with _ | ⟨s, o⟩ | ⟨e, o⟩ | _
  · exact .inr (.inr trivial)
  · obtain ⟨b, st', h⟩ := hH o s st (hm s o rfl)
    simp only [invokeK, caseM, h]; exact sim_ok
  · exact sim_err
  · exact .inr (.inl rfl)

theorem sim_rep {cn : Pat ι β → σ → Nat → Option (CRes σ (Val β))}
    {mt : Pat ι β → Nat → Option (Res Span)} {p : Pat ι β} {more room : Nat → Bool}
    {ok : Nat → Bool} {e : Error} {beg : Nat} {w : List (Val β) → Val β}
    (hp : ∀ st o, V o → Sim x (cn p st o) (mt p o))
    (hv : ∀ o s o', V o → mt p o = some (.ok s o') → V o') (hroom : x ∨ ∀ c, room c = true) :
    ∀ fuel cnt vals st t o, V o →
      Sim x (conRep cn p more room (conFinish ok e beg w) fuel cnt vals st o)
        (repLoop mt p more (finish ok e beg) fuel cnt t o) := by
  intro fuel
  induction fuel with
  | zero => intro _ _ _ _ _ _; exact .inr (.inr trivial)
  | succ n ih =>
    intro cnt vals st t o ho
    simp only [conRep, repLoop]
    split
    · refine sim_caseR (hp st o ho) (fun v st1 s o1 _ hm => sim_addK fun u => ?_)
        (fun e st1 o1 _ _ => sim_finish)
      split
      · exact ih _ _ _ _ _ (hv _ _ _ ho hm)
      · next h =>
        rcases hroom with hx | hr
        · exact .inl ⟨hx, rfl⟩
        · exact absurd (hr _) h
    · exact sim_finish

theorem sim_sep {cn : Pat ι β → σ → Nat → Option (CRes σ (Val β))}
    {mt : Pat ι β → Nat → Option (Res Span)} {p s : Pat ι β} {skip : Bool} {more room : Nat → Bool}
    {ok : Nat → Bool} {e : Error} {beg : Nat} {w : List (Val β) → Val β}
    (hp : ∀ st o, V o → Sim x (cn p st o) (mt p o))
    (hv : ∀ o s o', V o → mt p o = some (.ok s o') → V o')
    (hv' : ∀ o t o', V o → mt s o = some (.ok t o') → V o') (hroom : x ∨ ∀ c, room c = true) :
    ∀ fuel cnt vals st t o, V o →
      Sim x (conSep cn (mt s) p skip more room (conFinish ok e beg w) fuel cnt vals st o)
        (sepLoop mt p s skip more (finish ok e beg) fuel cnt t o) := by
  intro fuel
  induction fuel with
  | zero => intro _ _ _ _ _ _; exact .inr (.inr trivial)
  | succ n ih =>
    intro cnt vals st t o ho
    have noroom : ∀ {m}, room cnt ≠ true → Sim x (some CRes.panic : Option (CRes σ (Val β))) m := by
      intro m h
      rcases hroom with hx | hr
      · exact .inl ⟨hx, rfl⟩
      · exact absurd (hr _) h
    simp only [conSep, sepLoop]
    split
    · refine sim_caseR (hp st o ho) (fun v st1 sp o1 _ hm => sim_caseM (fun ss o2 hm2 => ?_) fun e o2 _ => ?_)
        (fun e st1 o1 _ _ => sim_finish)
      · refine sim_addK fun u => sim_addK fun u => ?_
        split
        · exact ih _ _ _ _ _ (hv' _ _ _ (hv _ _ _ ho hm) hm2)
        · next h => exact noroom h
      · cases skip with
        | true =>
          simp only [if_true]
          refine sim_addK fun u => ?_
          split
          · exact sim_finish
          · next h => exact noroom h
        | false => simp only [Bool.false_eq_true, if_false]; exact sim_finish
    · exact sim_finish

theorem sim_choice {cn : Pat ι β → σ → Nat → Option (CRes σ (Val β))}
    {mt : Pat ι β → Nat → Option (Res Span)} {e : Error} {beg : Nat} (hbeg : V beg)
    (items : List (Pat ι β × Option (Val β)))
    (hp : ∀ it ∈ items, ∀ st o, V o → Sim x (cn it.1 st o) (mt it.1 o)) :
    ∀ st o, V o → Sim x (conChoice cn e beg items st o) (choiceLoop mt e beg items o) := by
  induction items with
  | nil => intro st o _; exact sim_err
  | cons it items ih =>
    intro st o ho
    simp only [conChoice, choiceLoop]
    exact sim_caseR (hp it (by simp) st o ho) (fun _ _ _ _ _ _ => sim_ok)
      (fun _ _ _ _ _ => ih (fun it h => hp it (by simp [h])) _ _ hbeg)

end

/-- Constructing and matching with the same fuel agree. -/
theorem sim_con_gen {V : Nat → Prop} {W : Pat ι β → Prop} {T : Span → Nat → Prop}
    (hK : Keeps G d V W T) (hH : H.TotalOn d T) (n : Nat) (p : Pat ι β)
    (hp : CAll G (Agree G x) p) (hW : W p) (st : σ) (o : Nat) (ho : V o) :
    Sim x (con G H n none d p st o) (parse G n none d p o) := by
  induction n generalizing p st o with
  | zero => exact .inr (.inr trivial)
  | succ n ih =>
    have hl := hp.self
    have ch : ∀ q, CChild G q p → ∀ st o, V o →
        Sim x (con G H n none d q st o) (parse G n none d q o) :=
      fun q hq st o ho => ih q (hp.child hq) (hK.child hW hq.child) st o ho
    have vo : ∀ q, Child G q p → ∀ o s o', V o → parse G n none d q o = some (.ok s o') → V o' :=
      fun q hq o s o' ho h => (hK.ok (hK.child hW hq) ho h).1
    have leaf : Sim x (invokeK H d st (parse G (n + 1) none d p o)) (parse G (n + 1) none d p o) :=
      sim_invoke hH fun s o' h => (hK.ok hW ho h).2
    simp only [con]
    unfold conStep
    cases p with
    | empty => exact leaf
    | fail => exact leaf
    | start => exact leaf
    | anchorEnd => exact leaf
    | consume k => exact leaf
    | consumeAll => exact leaf
    | lit l => exact leaf
    | native f => exact leaf
    | once u c => exact leaf
    | many1 u c => exact leaf
    | optU u c => exact leaf
    | many0 u c => exact leaf
    | between a b u c => exact leaf
    | times r u c => exact leaf
    | thenU u v c => exact leaf
    | assert q b => exact leaf
    | build q f => exact leaf
    | pat q => exact leaf
    | thn a b =>
      exact sim_caseR (ch a (.inl rfl) st o ho) (fun _ _ _ _ _ h1 =>
        sim_caseR (ch b (.inr rfl) _ _ (vo a (.inl rfl) _ _ _ ho h1))
          (fun _ _ _ _ _ _ => sim_addK fun _ => sim_ok) (fun _ _ _ _ _ => sim_err))
        (fun _ _ _ _ _ => sim_err)
    | ifThen a t b =>
      exact sim_caseR (ch a (.inl rfl) st o ho) (fun _ _ _ _ _ h1 => sim_caseM
        (fun _ _ h2 => sim_addK fun _ => sim_caseR (ch b (.inr rfl) _ _
            (vo t (.inr (.inl rfl)) _ _ _ (vo a (.inl rfl) _ _ _ ho h1) h2))
          (fun _ _ _ _ _ _ => sim_addK fun _ => sim_ok) (fun _ _ _ _ _ => sim_err))
        (fun _ _ _ => sim_ok))
        (fun _ _ _ _ _ => sim_err)
    | pre a b =>
      exact sim_caseM (fun _ _ h1 => sim_caseR (ch b rfl _ _ (vo a (.inl rfl) _ _ _ ho h1))
        (fun _ _ _ _ _ _ => sim_addK fun _ => sim_ok) (fun _ _ _ _ _ => sim_err))
        (fun _ _ _ => sim_err)
    | suf a b =>
      exact sim_caseR (ch a rfl st o ho) (fun _ _ _ _ _ _ => sim_caseM
        (fun _ _ _ => sim_addK fun _ => sim_ok) (fun _ _ _ => sim_err))
        (fun _ _ _ _ _ => sim_err)
    | enclose a b c =>
      exact sim_caseM (fun _ _ h1 => sim_caseR (ch b rfl _ _ (vo a (.inl rfl) _ _ _ ho h1))
        (fun _ _ _ _ _ _ => sim_addK fun _ => sim_caseM (fun _ _ _ => sim_addK fun _ => sim_ok)
          (fun _ _ _ => sim_err))
        (fun _ _ _ _ _ => sim_err)) (fun _ _ _ => sim_err)
    | sepOnce a b c =>
      exact sim_caseR (ch a (.inl rfl) st o ho) (fun _ _ _ _ _ h1 => sim_addK fun _ => sim_caseM
        (fun _ _ h2 => sim_addK fun _ => sim_caseR (ch c (.inr rfl) _ _
            (vo b (.inr (.inl rfl)) _ _ _ (vo a (.inl rfl) _ _ _ ho h1) h2))
          (fun _ _ _ _ _ _ => sim_addK fun _ => sim_ok) (fun _ _ _ _ _ => sim_err))
        (fun _ _ _ => sim_err))
        (fun _ _ _ _ _ => sim_err)
    | or a b =>
      exact sim_caseR (ch a (.inl rfl) st o ho) (fun _ _ _ _ _ _ => sim_ok)
        (fun _ _ _ _ _ => sim_caseR (ch b (.inr rfl) _ _ ho) (fun _ _ _ _ _ _ => sim_ok)
          (fun _ _ _ _ _ => sim_err))
    | longest a b =>
      refine sim_caseR (ch a (.inl rfl) st o ho) (fun v st1 s o1 _ hm => ?_) (fun _ _ _ _ _ => ?_)
      · have ea : s.beg = o ∧ o1 = s.beg + s.len := exact_inv G n d a o hl.1 _ hm
        have eo : o + s.len = o1 := by omega
        simp only [eo]
        refine sim_caseR (ch b (.inr rfl) _ _ ho) (fun v' st2 s' o2 _ hm' => ?_) (fun _ _ _ _ _ => ?_)
        · have eb : s'.beg = o ∧ o2 = s'.beg + s'.len := exact_inv G n d b o hl.2 _ hm'
          have eo' : o + s'.len = o2 := by omega
          simp only [eo']
          by_cases hc : o1 ≥ o2
          · rw [if_pos hc, if_pos (show s.len ≥ s'.len by omega)]; exact sim_ok
          · rw [if_neg hc, if_neg (show ¬ s.len ≥ s'.len by omega)]; exact sim_ok
        · exact sim_ok
      · refine sim_caseR (ch b (.inr rfl) _ _ ho) (fun v' st2 s' o2 _ hm' => ?_) (fun _ _ _ _ _ => sim_err)
        have eb : s'.beg = o ∧ o2 = s'.beg + s'.len := exact_inv G n d b o hl.2 _ hm'
        have eo' : o + s'.len = o2 := by omega
        simp only [eo']; exact sim_ok
    | opt q =>
      exact sim_caseR (ch q rfl st o ho) (fun _ _ _ _ _ _ => sim_ok) (fun _ _ _ _ _ => sim_ok)
    | choice e items => exact sim_choice ho items (fun it hit => ch it.1 ⟨it, hit, rfl⟩) st o ho
    | ltm e items => exact hl.elim
    | rep q r => exact sim_rep (ch q rfl) (vo q rfl) (.inr fun _ => rfl) _ _ _ _ _ _ ho
    | rep2 q a b => exact sim_rep (ch q rfl) (vo q rfl) (.inl hl) _ _ _ _ _ _ ho
    | collect q a => exact sim_rep (ch q rfl) (vo q rfl) (.inr fun _ => rfl) _ _ _ _ _ _ ho
    | sep q s k a =>
      exact sim_sep (mt := matWith (parse G n) none d) (ch q rfl) (vo q (.inl rfl)) (vo s (.inr rfl))
        (.inr fun _ => rfl) _ _ _ _ _ _ ho
    | sep2 q s k a b =>
      exact sim_sep (mt := matWith (parse G n) none d) (ch q rfl) (vo q (.inl rfl)) (vo s (.inr rfl))
        (.inl hl) _ _ _ _ _ _ ho
    | sepCollect q s k a => exact hl.elim
    | branch t a b =>
      simp only [parse, step]
      cases t d o with
      | panic => exact .inr (.inl rfl)
      | err e => exact sim_err
      | ok t =>
        refine sim_caseR (ch _ ?_ st o ho) (fun _ _ _ _ _ _ => sim_ok) (fun _ _ _ _ _ => sim_err)
        cases t
        · exact .inr rfl
        · exact .inl rfl
    | map q f =>
      have h := ch q rfl st o ho
      simp only [parse, step]
      show Sim x _ (parse G n none d q o)
      rcases h with ⟨hx, h⟩ | h | h
      · rw [h]; exact .inl ⟨hx, rfl⟩
      · rw [h]; exact .inr (.inl rfl)
      · generalize con G H n none d q st o = c at h
        generalize parse G n none d q o = m at h
        rcases c with _ | ⟨v, st', o'⟩ | ⟨e, st', o'⟩ | _ <;> try exact .inr (.inr h)
        · obtain ⟨w, hw⟩ := hl v
          simp only [caseC, caseT, hw]
          rcases m with _ | ⟨s, o'⟩ | ⟨e', o'⟩ | _ <;> exact .inr (.inr h)
    | dthen q f => exact hl.elim
    | cell i =>
      simp only [parse, step]
      cases hg : G i with
      | none => exact sim_err
      | some q => exact ch q hg st o ho

theorem sim_con (hH : H.Total) (n : Nat) (p : Pat ι β) (hp : CAll G (Agree G x) p) (st : σ) (o : Nat) :
    Sim x (con G H n none d p st o) (parse G n none d p o) :=
  sim_con_gen Keeps.trivial (fun o s st _ => hH d o s st) n p hp trivial st o trivial

end Neure
