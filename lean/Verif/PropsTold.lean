import Verif.ToldLemmas
import Verif.PropsParam
import Verif.Surface
/-!
# C89: what a handler is told, and what becomes of its answers

The specification is in `Told.lean`: `recording H` is the handler `H` keeping a protocol,
`Faithful` the condition on mappers and tags, `Ordered`/`Scattered` the order of the text.
-/

namespace Neure

set_option linter.unusedSectionVars false
set_option linter.unusedSimpArgs false

open Demo

variable {ι β σ : Type} [Item ι] {G : Rules ι β} {H : Handler ι β σ} {pol : Option (Pat ι β)}
  {d : List ι} {p : Pat ι β}

/-! ## Keeping a protocol changes nothing -/

theorem rval_eq {v v' : Val β} : RVal (· = ·) v v' ↔ v = v' := by
  constructor
  · intro h
    induction h with
    | base h => rw [h]
    | pair _ _ i1 i2 => rw [i1, i2]
    | none => rfl
    | some _ i => rw [i]
    | nil => rfl
    | cons _ _ i1 i2 => rw [i1, i2]
  · rintro rfl
    induction v with
    | base b => exact .base rfl
    | pair _ _ i1 i2 => exact .pair i1 i2
    | none => exact .none
    | some _ i => exact .some i
    | nil => exact .nil
    | cons _ _ i1 i2 => exact .cons i1 i2

theorem alike_eq (G : Rules ι β) : Parallel (· = ·) G G (· = ·) := by
  rintro p _ rfl
  have hcond : ∀ c : Cond ι β, AlikeCond (· = ·) c c := by
    intro c
    cases c with
    | empty => exact .empty
    | fn f => exact .fn f
    | regex q => exact .regex rfl
  have hitems : ∀ l : List (Pat ι β × Option (Val β)), AlikeItems (· = ·) (· = ·) l l := by
    intro l
    induction l with
    | nil => exact .nil
    | cons it l ih =>
      refine .cons rfl ?_ ih
      cases it.2 with
      | none => exact .none
      | some k => exact .some (rval_eq.2 rfl)
  have hb : ∀ r : Res (Pat ι β), AlikeBuilt (· = ·) r r := by
    intro r
    cases r with
    | ok q o => exact .ok o rfl
    | err e o => exact .err e o
    | panic => exact .panic
  cases p with
  | once _ c | many1 _ c | optU _ c | many0 _ c | between _ _ _ c | times _ _ c | thenU _ _ c =>
    constructor; exact hcond c
  | choice e l => exact .choice e (hitems l)
  | ltm e l => exact .ltm e (hitems l)
  | build q f => exact .build rfl fun d o s => hb _
  | map q f =>
    refine .map rfl fun v v' h => ?_
    rw [rval_eq] at h; subst h
    cases f v with
    | ok w => exact .ok (rval_eq.2 rfl)
    | err e => exact .err e
    | panic => exact .panic
  | dthen q f =>
    refine .dthen rfl fun d o v v' h => ?_
    rw [rval_eq] at h; subst h; exact hb _
  | cell i =>
    cases hx : G i with
    | none => exact .unset hx hx
    | some q => exact .cell hx hx rfl
  | _ => constructor <;> rfl

/-- **C89 (keeping a protocol).** The handler that records its calls builds what the handler
itself builds: the same values, errors, positions, states, panics. -/
theorem C89_recording (st : σ) (log : List (Span × Option β)) (o : Nat) :
    (∀ v st' o', Constructs G H pol d p st o (.ok v st' o') ↔
      ∃ log', Constructs G (recording H) pol d p (st, log) o (.ok v (st', log') o')) ∧
    (∀ e st' o', Constructs G H pol d p st o (.err e st' o') ↔
      ∃ log', Constructs G (recording H) pol d p (st, log) o (.err e (st', log') o')) ∧
    (Constructs G H pol d p st o .panic ↔ Constructs G (recording H) pol d p (st, log) o .panic) := by
  have hh : RHandler (fun (a : σ) (b : σ × List (Span × Option β)) => a = b.1) (· = ·) d H (recording H) := by
    rintro o s _ st rfl
    unfold recording
    rcases H d o s st.1 with ⟨_ | _ | _, st'⟩
    · exact ⟨.ok rfl, rfl⟩
    · exact ⟨.err _, rfl⟩
    · exact ⟨.panic, rfl⟩
  have hpol : ROpt (· = ·) pol pol := by
    cases pol with
    | none => exact .none
    | some q => exact .some rfl
  obtain ⟨h1, h2⟩ := C76_building (alike_eq G) hh hpol (p := p) rfl (st := st) (st' := (st, log)) rfl o
  refine ⟨fun v st' o' => ⟨fun h => ?_, fun ⟨log', h⟩ => ?_⟩, fun e st' o' => ⟨fun h => ?_, fun ⟨log', h⟩ => ?_⟩,
    fun h => ?_, fun h => ?_⟩
  · obtain ⟨_, h', hr⟩ := h1 _ h
    cases hr with
    | @ok _ a' _ st2 _ hv hs =>
      rw [rval_eq] at hv; subst hv; subst hs
      exact ⟨st2.2, h'⟩
  · obtain ⟨_, h', hr⟩ := h2 _ h
    cases hr with
    | ok _ hv hs => rw [rval_eq] at hv; subst hv; subst hs; exact h'
  · obtain ⟨_, h', hr⟩ := h1 _ h
    cases hr with
    | @err _ st2 _ _ hs => subst hs; exact ⟨st2.2, h'⟩
  · obtain ⟨_, h', hr⟩ := h2 _ h
    cases hr with
    | err _ _ hs => subst hs; exact h'
  · obtain ⟨_, h', hr⟩ := h1 _ h
    cases hr; exact h'
  · obtain ⟨_, h', hr⟩ := h2 _ h
    cases hr; exact h'

/-! ## A value is made of answers -/

/-- The protocol grows by calls among whose answers are those in `l`, in order. -/
private def grows (st : σ × List (Span × Option β)) (_ : Nat) (l : List β)
    (st' : σ × List (Span × Option β)) (_ : Nat) : Prop :=
  ∃ calls, st'.2 = st.2 ++ calls ∧ l.Sublist (answersIn calls)

private theorem grows_track : Track (grows (β := β) (σ := σ)) True where
  nil := ⟨[], by simp, List.nil_sublist _⟩
  app := by
    rintro st o l st1 o1 l' st2 o2 ⟨c, h, hs⟩ ⟨c', h', hs'⟩
    exact ⟨c ++ c', by rw [h', h, List.append_assoc], by
      simp only [answersIn, List.filterMap_append]; exact hs.append hs'⟩
  sub := by rintro st o l l' st' o' ⟨c, h, hs⟩ hl; exact ⟨c, h, hl.trans hs⟩
  side := by
    rintro st o l st1 o1 l' st2 o2 ⟨c, h, hs⟩ ⟨c', h', hs'⟩
    exact ⟨c ++ c', by rw [h', h, List.append_assoc], by
      simp only [answersIn, List.filterMap_append]; exact hs.trans (List.sublist_append_left _ _)⟩
  far := by
    rintro _ st o l st1 o1 l' st2 o2 ⟨c, h, hs⟩ ⟨c', h', hs'⟩
    exact ⟨c ++ c', by rw [h', h, List.append_assoc], by
      simp only [answersIn, List.filterMap_append]; exact hs.trans (List.sublist_append_left _ _)⟩

private theorem grows_tells (hp : CAll G (Faithful True) p) :
    CAll G (Tells G (recording H) pol d grows True) p := by
  refine hp.mono fun q hq => ⟨fun m _ st o => ⟨fun s o' _ => ⟨grows_track.nil (o := 0), fun b st' h => ?_, fun e st' h => ?_⟩,
    fun _ _ _ => grows_track.nil (o := 0)⟩, fun _ _ _ _ _ _ => ⟨fun _ _ _ => grows_track.nil (o := 0), fun _ _ _ => grows_track.nil (o := 0)⟩, hq⟩
  · unfold recording at h
    split at h <;> cases h
    exact ⟨[_], rfl, List.Sublist.refl _⟩
  · unfold recording at h
    split at h <;> cases h
    exact ⟨[_], rfl, List.nil_sublist _⟩

/-- **C89 (answers).** The value is made of answers the handler gave during this very call, in
the order in which it gave them; calls made for what was tried and given up come in between,
and their answers are left out.  Nobody but the handler makes a leaf, none is used twice. -/
theorem C89_answers (hp : CAll G (Faithful True) p) {st st' : σ} {log log' : List (Span × Option β)}
    {o o' : Nat} {v : Val β} (h : Constructs G (recording H) pol d p (st, log) o (.ok v (st', log') o')) :
    ∃ calls, log' = log ++ calls ∧ v.leaves.Sublist (answersIn calls) := by
  obtain ⟨n, hn⟩ := h
  exact track_inv grows_track n p (grows_tells hp) _ _ _ hn

/-- **C89 (protocol).** Whatever the outcome, a call only adds to the protocol. -/
theorem C89_protocol_grows (hp : CAll G (Faithful True) p) {st st' : σ} {log log' : List (Span × Option β)}
    {o o' : Nat} {e : Error} (h : Constructs G (recording H) pol d p (st, log) o (.err e (st', log') o')) :
    ∃ calls, log' = log ++ calls := by
  obtain ⟨n, hn⟩ := h
  obtain ⟨c, hc, _⟩ := track_inv grows_track n p (grows_tells hp) _ _ _ hn
  exact ⟨c, hc⟩

/-! ## In the order of the text -/

section Order
variable {Made : Span → β → Prop}

theorem Ordered.le {o o' : Nat} {l : List β} (h : Ordered Made o l o') : o ≤ o' := by
  induction h with
  | nil h => exact h
  | cons h _ _ ih => omega

theorem Ordered.weaken {o₀ o o' : Nat} {l : List β} (h : Ordered Made o l o') (h0 : o₀ ≤ o) :
    Ordered Made o₀ l o' := by
  cases h with
  | nil h => exact .nil (by omega)
  | cons h hm hl => exact .cons (by omega) hm hl

theorem Ordered.append {o o1 o' : Nat} {l l' : List β} (h : Ordered Made o l o1)
    (h' : Ordered Made o1 l' o') : Ordered Made o (l ++ l') o' := by
  induction h with
  | nil h => exact h'.weaken h
  | cons h hm _ ih => exact .cons h hm (ih h')

theorem Ordered.sublist {o o' : Nat} {l l' : List β} (h : Ordered Made o l o') (hs : l'.Sublist l) :
    Ordered Made o l' o' := by
  induction h generalizing l' with
  | nil h => rw [List.sublist_nil] at hs; subst hs; exact .nil h
  | @cons o o' s b l h hm _ ih =>
    cases hs with
    | cons _ hs => exact (ih hs).weaken (by omega)
    | cons_cons _ hs => exact .cons h hm (ih hs)

/-- Inside the text, the answers are in order. -/
private def runsOn (d : List ι) (Made : Span → β → Prop) (_ : σ) (o : Nat) (l : List β) (_ : σ) (o' : Nat) : Prop :=
  o ≤ blen d → Ordered Made o l o' ∧ o' ≤ blen d

private theorem runsOn_track : Track (runsOn (σ := σ) d Made) False where
  nil := fun h => ⟨.nil (Nat.le_refl _), h⟩
  app := fun h1 h2 ho => ⟨(h1 ho).1.append (h2 (h1 ho).2).1, (h2 (h1 ho).2).2⟩
  sub := fun h hs ho => ⟨(h ho).1.sublist hs, (h ho).2⟩
  side := fun h _ => h
  far := fun h => h.elim

private theorem runsOn_tells (hH : ∀ o s st b st', H d o s st = (.ok b, st') → Made s b) (hpol : SafePol G pol)
    (hs : CAll G (CSafe G pol d) p) (hp : CAll G (Faithful False) p) :
    CAll G (Tells G H pol d (runsOn d Made) False) p := by
  refine fun q hq => ⟨fun m hm st o => ⟨fun s o' hr => ⟨fun ho => ?_, fun b st' h ho => ?_, fun e st' h ho => ?_⟩,
    fun e o' hr ho => ?_⟩, fun q' f hqf st o v => ⟨fun p' o' hf ho => ?_, fun e o' hf ho => ?_⟩, hp q hq⟩
  · have := (C05_forward_and_in_bounds G pol hpol d m ((hs q hq).1 m hm) o ho).1 s o' hr
    exact ⟨.nil (by omega), this.2.2⟩
  · have := (C05_forward_and_in_bounds G pol hpol d m ((hs q hq).1 m hm) o ho).1 s o' hr
    exact ⟨.cons this.1 (hH _ _ _ _ _ h) (.nil this.2.1), this.2.2⟩
  · have := (C05_forward_and_in_bounds G pol hpol d m ((hs q hq).1 m hm) o ho).1 s o' hr
    exact ⟨.nil (by omega), this.2.2⟩
  · have := (C05_forward_and_in_bounds G pol hpol d m ((hs q hq).1 m hm) o ho).2 e o' hr
    exact ⟨.nil this.1, this.2⟩
  · subst hqf
    have := (hs _ hq).2 o v ho
    rw [hf] at this
    exact ⟨.nil this.1, this.2⟩
  · subst hqf
    have := (hs _ hq).2 o v ho
    rw [hf] at this
    exact ⟨.nil this.1, this.2⟩

/-- **C89 (order).** The answers in a value stand, from left to right, for spans that lie in the
text one behind the other without overlapping, all between the position before and the position
after.  `Made s b`: `b` is what the handler may answer when called with the span `s`. -/
theorem C89_in_order (hH : ∀ o s st b st', H d o s st = (.ok b, st') → Made s b) (hpol : SafePol G pol)
    (hs : CAll G (CSafe G pol d) p) (hp : CAll G (Faithful False) p) {st st' : σ} {o o' : Nat}
    (ho : o ≤ blen d) {v : Val β} (h : Constructs G H pol d p st o (.ok v st' o')) :
    Ordered Made o v.leaves o' ∧ o' ≤ blen d := by
  obtain ⟨n, hn⟩ := h
  exact track_inv runsOn_track n p (runsOn_tells hH hpol hs hp) st o _ hn ho

end Order

theorem ordered_spans {o o' : Nat} {l : List Span} (h : Ordered (fun s b => b = s) o l o') :
    (∀ s ∈ l, o ≤ s.beg ∧ s.beg + s.len ≤ o') ∧ l.Pairwise fun s t => s.beg + s.len ≤ t.beg := by
  induction h with
  | nil h => exact ⟨by simp, .nil⟩
  | @cons o o' s b l h hm hl ih =>
    subst hm
    refine ⟨fun t ht => ?_, .cons (fun t ht => (ih.1 t ht).1) ih.2⟩
    rcases List.mem_cons.1 ht with rfl | ht
    · exact ⟨h, hl.le⟩
    · exact ⟨by have := (ih.1 t ht).1; omega, (ih.1 t ht).2⟩

/-- **C89 (spans).** The spans in what `ctx.ctor_span` returns do not overlap, come in the order of
the text, and lie between the old and the new position. -/
theorem C89_spans {G : Rules ι Span} {pol : Option (Pat ι Span)} {p : Pat ι Span} (hpol : SafePol G pol)
    (hs : CAll G (CSafe G pol d) p) (hp : CAll G (Faithful False) p) {st st' : σ} {o o' : Nat}
    (ho : o ≤ blen d) {v : Val Span} (h : Constructs G spanH pol d p st o (.ok v st' o')) :
    (∀ s ∈ v.leaves, o ≤ s.beg ∧ s.beg + s.len ≤ o') ∧
      v.leaves.Pairwise (fun s t => s.beg + s.len ≤ t.beg) ∧ o' ≤ blen d := by
  obtain ⟨h1, h2⟩ := C89_in_order (Made := fun s b => b = s) (H := spanH)
    (fun o s st b st' h => by cases h; rfl) hpol hs hp ho h
  exact ⟨(ordered_spans h1).1, (ordered_spans h1).2, h2⟩

/-- **C89 (texts).** The texts in what `ctx.ctor` returns occur in the input one after the other,
in this order, between the old and the new position. -/
theorem C89_texts {G : Rules ι (List ι)} {pol : Option (Pat ι (List ι))} {p : Pat ι (List ι)}
    (hpol : SafePol G pol) (hs : CAll G (CSafe G pol d) p) (hp : CAll G (Faithful False) p) {st st' : σ}
    {o o' : Nat} (ho : o ≤ blen d) {v : Val (List ι)} (h : Constructs G extractH pol d p st o (.ok v st' o')) :
    Scattered d o v.leaves o' := by
  have h1 := (C89_in_order (Made := fun s b => origSub d s.beg s.len = .ok b) (H := extractH)
    (fun o s st b st' h => by unfold extractH at h; exact (Prod.mk.inj h).1) hpol hs hp ho h).1
  clear h ho
  generalize v.leaves = ls at h1 ⊢
  induction h1 with
  | nil h => exact .nil h
  | @cons o o' s b l h hm hl ih =>
    refine .cons h ?_ ih
    obtain ⟨pre, post, h1, h2, h3⟩ := origSub_ok.1 hm
    exact ⟨pre, post, h1, h2, by omega⟩

/-! ## A case

`a=b`, `a=bc`, …, separated by commas: for the second half `b` followed by `c` is tried first. -/

private def fields (β : Type) : Pat Char β :=
  .sep (.sepOnce (.lit ['a']) (.lit ['=']) (.or (.thn (.lit ['b']) (.lit ['c'])) (.lit ['b']))) (.lit [',']) true 1

private theorem fields_all {β : Type} {P : Pat Char β → Prop} (h1 : P (fields β))
    (h2 : P (.sepOnce (.lit ['a']) (.lit ['=']) (.or (.thn (.lit ['b']) (.lit ['c'])) (.lit ['b']))))
    (h3 : P (.or (.thn (.lit ['b']) (.lit ['c'])) (.lit ['b']))) (h4 : P (.thn (.lit ['b']) (.lit ['c'])))
    (h5 : ∀ c, P (.lit [c])) : CAll G0 P (fields β) := by
  have hlit : ∀ c, CAll G0 P (.lit [c] : Pat Char β) := fun c => CAll.intro (h5 c) fun _ h => h.elim
  refine CAll.intro h1 fun q hq => ?_
  have : q = _ := hq
  subst this
  refine CAll.intro h2 fun q hq => ?_
  rcases hq with rfl | rfl
  · exact hlit _
  refine CAll.intro h3 fun q hq => ?_
  rcases hq with rfl | rfl
  · refine CAll.intro h4 fun q hq => ?_
    rcases hq with rfl | rfl <;> exact hlit _
  · exact hlit _

private theorem fields_safe (β : Type) (d : List Char) : CAll G0 (CSafe G0 none d) (fields β) := by
  refine fields_all ⟨?_, trivial⟩ ⟨?_, trivial⟩ ⟨fun _ h => h.elim, trivial⟩ ⟨fun _ h => h.elim, trivial⟩
    fun c => ⟨?_, trivial⟩ <;> (intro m hm; have : m = _ := hm; subst this; exact all_lit trivial)

private theorem fields_faithful (β : Type) (far : Prop) : CAll G0 (Faithful far) (fields β) :=
  fields_all trivial trivial trivial trivial fun _ => trivial

/-- Six calls, five of whose answers are in the value. -/
example : CAll G0 (Faithful True) (fields Nat) ∧
    Constructs G0 (recording fun _ _ s (st : Nat) => (.ok s.beg, st + 1)) none "a=b,a=bc;".toList (fields Nat) (0, []) 0
      (.ok (.list [.pair (.base 0) (.base 2), .pair (.base 4) (.pair (.base 6) (.base 7))])
        (6, [(⟨0, 1⟩, some 0), (⟨2, 1⟩, some 2), (⟨2, 1⟩, some 2), (⟨4, 1⟩, some 4), (⟨6, 1⟩, some 6), (⟨7, 1⟩, some 7)]) 8) :=
  ⟨fields_faithful _ _, 12, by decide +kernel⟩

example : SafePol (G0 : Rules Char Span) none ∧ CAll G0 (CSafe G0 none "a=b,a=bc;".toList) (fields Span) ∧
    CAll G0 (Faithful False) (fields Span) ∧
    Constructs G0 spanH none "a=b,a=bc;".toList (fields Span) () 0
      (.ok (.list [.pair (.base ⟨0, 1⟩) (.base ⟨2, 1⟩), .pair (.base ⟨4, 1⟩) (.pair (.base ⟨6, 1⟩) (.base ⟨7, 1⟩))]) () 8) :=
  ⟨fun _ h => by (cases h), fields_safe _ _, fields_faithful _ _, 12, by decide +kernel⟩

/-- Whatever the input: the texts found are scattered over it in order. -/
example (d : List Char) (v : Val (List Char)) (o' : Nat)
    (h : Constructs G0 extractH none d (fields (List Char)) () 0 (.ok v () o')) : Scattered d 0 v.leaves o' :=
  C89_texts (fun _ h => by cases h) (fields_safe _ d) (fields_faithful _ _) (Nat.zero_le _) h

/-- **C89 (counterexample).** With the longest-alternative containers, which leave the position
where their last attempt stopped, two spans of one value overlap. -/
theorem C89_ltm_counterexample :
    Constructs G0 spanH none "abc".toList
      (.thn (.ltm .array [(.lit ['a', 'b', 'c'], none), (.lit ['a'], none)]) (.lit ['b']) : Pat Char Span) () 0
      (.ok (.pair (.base ⟨0, 3⟩) (.base ⟨1, 1⟩)) () 2) := ⟨6, by decide +kernel⟩

/-- **C89 (counterexample).** A mapper may make up leaves the handler never gave. -/
theorem C89_mapper_counterexample :
    Constructs G0 (recording fun _ _ s (st : Unit) => (.ok s.len, st)) none "a".toList
      (.map (.lit ['a']) fun _ => .ok (.base 77) : Pat Char Nat) ((), []) 0
      (.ok (.base 77) ((), [(⟨0, 1⟩, some 1)]) 1) := ⟨4, by decide +kernel⟩

/-! ## Mappers that select -/

theorem faithful_0 {far : Prop} (p : Pat ι β) : Faithful far (Surface._0 p) := by
  intro v w h
  cases v with
  | pair a b => cases h; exact List.sublist_append_left _ _
  | _ => cases h

theorem faithful_1 {far : Prop} (p : Pat ι β) : Faithful far (Surface._1 p) := by
  intro v w h
  cases v with
  | pair a b => cases h; exact List.sublist_append_right _ _
  | _ => cases h

theorem faithful_eq {far : Prop} (eq : Val β → Val β → Bool) (p : Pat ι β) : Faithful far (Surface._eq eq p) := by
  intro v w h
  cases v with
  | pair a b =>
    simp only [Surface.onPair, selectEq] at h
    split at h
    · next h' =>
      split at h' <;> cases h'
      cases h; exact List.Sublist.refl _
    · cases h
    · cases h
  | _ => cases h

end Neure
