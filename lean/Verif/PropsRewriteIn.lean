import Verif.PropsRewrite
import Verif.PropsBlame
/-!
# C84 on positions of the input

Two patterns that return the same wherever a context can get without being moved by hand may
replace each other, although they may differ outside the input.
-/

namespace Neure

set_option linter.unusedSectionVars false
set_option linter.unusedSimpArgs false
set_option linter.unusedVariables false

open Demo

variable {ι β σ : Type} [Item ι] {G G' : Rules ι β} {H : Handler ι β σ} {pol : Option (Pat ι β)}
  {E : Error → Error → Prop} {p p' q : Pat ι β} {d : List ι} {o : Nat} {st : σ}

theorem Inside.dynK (h : Inside G pol p) (d : List ι) : DynK d (Valid d) p := by
  cases p <;> simp only [DynK]
  intro o v ho
  exact h.2 d o v ho

theorem Inside.buildsK (h : Inside G pol p) : BuildsK Valid p := by
  cases p with
  | build a f =>
    intro d o s q o' ho hf
    have := h.1 d o s ho
    rw [hf] at this
    exact this
  | dthen a f =>
    intro d o v q o' ho hf
    have := h.2 d o v ho
    rw [hf] at this
    exact this
  | _ => trivial

theorem MatchPart.cases {m : Pat ι β} (h : MatchPart m p) : m = p ∨ Child G m p := by
  cases p <;> simp only [MatchPart, Child] at h ⊢ <;>
    first
      | exact h.elim
      | exact .inl h
      | exact .inr h
      | (right; first | exact .inl h | exact .inr h | exact .inr (.inl h) | exact h.elim .inl (fun h => .inr (.inr h)))

theorem all_bounded (h : All G (Inside G pol) p) : All G (Bounded G pol) p := fun q hq => (h q hq).1

theorem call_cbounded (h : All G (Inside G pol) p) (d : List ι) : CAll G (CBounded G pol d) p := by
  intro q hq
  have hd := hq.desc
  refine ⟨fun m hm => ?_, (h q hd).dynK d⟩
  rcases hm.cases (G := G) with rfl | hc
  · exact all_bounded fun r hr => h r (hd.trans hr)
  · exact all_bounded fun r hr => h r ((Desc.step hd hc).trans hr)

theorem runsIn_valid (hpol : BoundPol G pol) : RunsWithin G pol Valid (All G (Inside G pol)) where
  child h hc := h.child hc
  builds h := h.self.buildsK
  stays := by
    intro p h d o r ho hr
    obtain ⟨n, hn⟩ := hr
    have := bound_inv G n pol hpol d p o ho (all_bounded h) r hn
    cases r with
    | ok s o' => exact this.2.2
    | err e o' => exact this
    | panic => trivial

theorem boundPol_of (h : InsidePol G pol) : BoundPol G pol := fun q hq => all_bounded (h q hq)

theorem boundPol_none : BoundPol G (none : Option (Pat ι β)) := fun _ h => by cases h

theorem skipsK_valid (h : InsidePol G pol) : SkipsK G Valid pol := fun q hq d o r ho hr =>
  (runsIn_valid boundPol_none).stays (h q hq) d o r ho (parses_iff.mpr hr)

theorem con_inside (hpol : InsidePol G pol) (h : All G (Inside G pol) p) (ho : Valid d o) {r : CRes σ (Val β)}
    (hr : Constructs G H pol d p st o r) : InC (Valid d) r := by
  obtain ⟨n, hn⟩ := hr
  have := con_valid (H := H) (st := st) (boundPol_of hpol) n (call_cbounded h d) ho r hn
  cases r with
  | ok => exact this
  | err => exact this
  | panic => trivial

theorem sameItems_child {R : Pat ι β → Pat ι β → Prop} {l l' : List (Pat ι β × Option (Val β))}
    (h : SameItems R l l') :
    SameItems (fun q q' => R q q' ∧ (∃ it ∈ l, q = it.1) ∧ (∃ it ∈ l', q' = it.1)) l l' := by
  induction h with
  | nil => exact .nil
  | cons v hp hl ih =>
    refine .cons v ⟨hp, ⟨_, .head _, rfl⟩, ⟨_, .head _, rfl⟩⟩ ?_
    have key : ∀ (R₁ R₂ : Pat ι β → Pat ι β → Prop), (∀ q q', R₁ q q' → R₂ q q') →
        ∀ l l', SameItems R₁ l l' → SameItems R₂ l l' := by
      intro R₁ R₂ h12 l l' h
      induction h with
      | nil => exact .nil
      | cons v hp _ ih => exact .cons v (h12 _ _ hp) ih
    exact key _ _ (fun q q' ⟨h1, ⟨it, h2, h3⟩, ⟨it', h4, h5⟩⟩ => ⟨h1, ⟨it, .tail _ h2, h3⟩, ⟨it', .tail _ h4, h5⟩⟩) _ _ ih

theorem sameCond_child {R : Pat ι β → Pat ι β → Prop} {c c' : Cond ι β} (h : SameCond R c c') :
    SameCond (fun q q' => R q q' ∧ c.Has q ∧ c'.Has q') c c' := by
  cases h with
  | empty => exact .empty
  | fn f => exact .fn f
  | regex h => exact .regex ⟨h, rfl, rfl⟩

/-- The components that correspond are components. -/
theorem sameShape_child {R : Pat ι β → Pat ι β → Prop} (h : SameShape G G' R p p') :
    SameShape G G' (fun q q' => R q q' ∧ Child G q p ∧ Child G' q' p') p p' := by
  cases h with
  | empty => exact .empty
  | fail => exact .fail
  | start => exact .start
  | anchorEnd => exact .anchorEnd
  | consume => exact .consume _
  | consumeAll => exact .consumeAll
  | lit => exact .lit _
  | native => exact .native _
  | once u h => exact .once u (sameCond_child h)
  | many1 u h => exact .many1 u (sameCond_child h)
  | optU u h => exact .optU u (sameCond_child h)
  | many0 u h => exact .many0 u (sameCond_child h)
  | between m n u h => exact .between m n u (sameCond_child h)
  | times r u h => exact .times r u (sameCond_child h)
  | thenU u v h => exact .thenU u v (sameCond_child h)
  | assert v h => exact .assert v ⟨h, rfl, rfl⟩
  | thn h1 h2 => exact .thn ⟨h1, .inl rfl, .inl rfl⟩ ⟨h2, .inr rfl, .inr rfl⟩
  | ifThen h1 h2 h3 =>
    exact .ifThen ⟨h1, .inl rfl, .inl rfl⟩ ⟨h2, .inr (.inl rfl), .inr (.inl rfl)⟩
      ⟨h3, .inr (.inr rfl), .inr (.inr rfl)⟩
  | pre h1 h2 => exact .pre ⟨h1, .inl rfl, .inl rfl⟩ ⟨h2, .inr rfl, .inr rfl⟩
  | suf h1 h2 => exact .suf ⟨h1, .inl rfl, .inl rfl⟩ ⟨h2, .inr rfl, .inr rfl⟩
  | enclose h1 h2 h3 =>
    exact .enclose ⟨h1, .inl rfl, .inl rfl⟩ ⟨h2, .inr (.inl rfl), .inr (.inl rfl)⟩
      ⟨h3, .inr (.inr rfl), .inr (.inr rfl)⟩
  | sepOnce h1 h2 h3 =>
    exact .sepOnce ⟨h1, .inl rfl, .inl rfl⟩ ⟨h2, .inr (.inl rfl), .inr (.inl rfl)⟩
      ⟨h3, .inr (.inr rfl), .inr (.inr rfl)⟩
  | or h1 h2 => exact .or ⟨h1, .inl rfl, .inl rfl⟩ ⟨h2, .inr rfl, .inr rfl⟩
  | longest h1 h2 => exact .longest ⟨h1, .inl rfl, .inl rfl⟩ ⟨h2, .inr rfl, .inr rfl⟩
  | opt h => exact .opt ⟨h, rfl, rfl⟩
  | choice e h => exact .choice e (sameItems_child h)
  | ltm e h => exact .ltm e (sameItems_child h)
  | rep r h => exact .rep r ⟨h, rfl, rfl⟩
  | rep2 m n h => exact .rep2 m n ⟨h, rfl, rfl⟩
  | collect m h => exact .collect m ⟨h, rfl, rfl⟩
  | sep k m h1 h2 => exact .sep k m ⟨h1, .inl rfl, .inl rfl⟩ ⟨h2, .inr rfl, .inr rfl⟩
  | sep2 k m n h1 h2 => exact .sep2 k m n ⟨h1, .inl rfl, .inl rfl⟩ ⟨h2, .inr rfl, .inr rfl⟩
  | sepCollect k m h1 h2 => exact .sepCollect k m ⟨h1, .inl rfl, .inl rfl⟩ ⟨h2, .inr rfl, .inr rfl⟩
  | branch t h1 h2 => exact .branch t ⟨h1, .inl rfl, .inl rfl⟩ ⟨h2, .inr rfl, .inr rfl⟩
  | map f h => exact .map f ⟨h, rfl, rfl⟩
  | pat h => exact .pat ⟨h, rfl, rfl⟩
  | @build a a' f f' h hf =>
    refine .build ⟨h, .inl rfl, .inl rfl⟩ fun d o s => ?_
    have h0 := hf d o s
    cases hx : f d o s <;> cases hy : f' d o s <;> rw [hx, hy] at h0 <;> cases h0
    · exact .ok _ ⟨by assumption, .inr ⟨d, o, s, _, hx⟩, .inr ⟨d, o, s, _, hy⟩⟩
    · exact .err _ _
    · exact .panic
  | @dthen a a' f f' h hf =>
    refine .dthen ⟨h, .inl rfl, .inl rfl⟩ fun d o s => ?_
    have h0 := hf d o s
    cases hx : f d o s <;> cases hy : f' d o s <;> rw [hx, hy] at h0 <;> cases h0
    · exact .ok _ ⟨by assumption, .inr ⟨d, o, s, _, hx⟩, .inr ⟨d, o, s, _, hy⟩⟩
    · exact .err _ _
    · exact .panic
  | unset h1 h2 => exact .unset h1 h2
  | cell h1 h2 h3 => exact .cell h1 h2 ⟨h3, h1, h2⟩

theorem actAlikeIn_iff : ActAlikeIn E G pol p p' ↔ ∀ d o, Valid d o →
    LeE E (parseL G pol d p o) (parseL G pol d p' o) ∧
      LeE (fun a b => E b a) (parseL G pol d p' o) (parseL G pol d p o) := by
  have flip {α : Type} {a b : Res α} : SameRes E a b ↔ SameRes (fun a b => E b a) b a := by
    constructor <;> intro h <;> cases h <;> constructor <;> assumption
  unfold ActAlikeIn
  simp only [parses_iff]
  refine forall_congr' fun d => forall_congr' fun o => imp_congr_right fun _ => and_congr Iff.rfl ?_
  refine forall_congr' fun r => imp_congr_right fun _ => exists_congr fun r' => and_congr Iff.rfl ?_
  exact flip

theorem buildAlikeIn_iff : BuildAlikeIn E G H pol p p' ↔ ∀ d st o, Valid d o →
    LeCE E (conL G H pol d p st o) (conL G H pol d p' st o) ∧
      LeCE (fun a b => E b a) (conL G H pol d p' st o) (conL G H pol d p st o) := by
  have flip {α : Type} {a b : CRes σ α} : SameCRes E a b ↔ SameCRes (fun a b => E b a) b a := by
    constructor <;> intro h <;> cases h <;> constructor <;> assumption
  unfold BuildAlikeIn
  simp only [constructs_iff]
  refine forall_congr' fun d => forall_congr' fun st => forall_congr' fun o => imp_congr_right fun _ =>
    and_congr Iff.rfl ?_
  refine forall_congr' fun r => imp_congr_right fun _ => exists_congr fun r' => and_congr Iff.rfl ?_
  exact flip

theorem ActAlikeIn.symm (hE : Equivalence E) (h : ActAlikeIn E G pol p p') : ActAlikeIn E G pol p' p :=
  fun d o ho =>
    ⟨fun r hr => let ⟨r', h1, h2⟩ := (h d o ho).2 r hr; ⟨r', h1, h2.flip hE⟩,
     fun r hr => let ⟨r', h1, h2⟩ := (h d o ho).1 r hr; ⟨r', h1, h2.flip hE⟩⟩

theorem WhollyAlikeIn.symm (hE : Equivalence E) (h : WhollyAlikeIn E G H pol p p') : WhollyAlikeIn E G H pol p' p :=
  ⟨h.1.symm hE, fun d st o ho =>
    ⟨fun r hr => let ⟨r', h1, h2⟩ := (h.2 d st o ho).2 r hr; ⟨r', h1, h2.flip hE⟩,
     fun r hr => let ⟨r', h1, h2⟩ := (h.2 d st o ho).1 r hr; ⟨r', h1, h2.flip hE⟩⟩⟩

theorem ActAlikeIn.le (h : ActAlikeIn E G pol p p') (ho : Valid d o) :
    LeE E (parseL G pol d p o) (parseL G pol d p' o) := ((actAlikeIn_iff.mp h) d o ho).1

theorem WhollyAlikeIn.le (h : WhollyAlikeIn E G H pol p p') (ho : Valid d o) :
    LeCE E (conL G H pol d p st o) (conL G H pol d p' st o) := ((buildAlikeIn_iff.mp h.2) d st o ho).1

/-- **C84 (everywhere is more).** Patterns that are alike are alike on positions of the input. -/
theorem C84_in_of_alike (h : WhollyAlike E G H pol p p') : WhollyAlikeIn E G H pol p p' :=
  ⟨fun d o _ => h.1 d o, fun d st o _ => h.2 d st o⟩

/-- **C84 (an equivalence, on positions of the input).** -/
theorem C84_in_equivalence (hE : Equivalence E) : Equivalence (WhollyAlikeIn E G H pol) where
  refl p := C84_in_of_alike ((C84_equivalence_build hE).refl p)
  symm h := h.symm hE
  trans h h' := ⟨fun d o ho =>
    ⟨fun r hr =>
      let ⟨_, h1, h2⟩ := (h.1 d o ho).1 r hr
      let ⟨_, h3, h4⟩ := (h'.1 d o ho).1 _ h1
      ⟨_, h3, SameRes.trans (E := E) (fun _ _ _ a b => hE.trans a b) h2 h4⟩,
     fun r hr =>
      let ⟨_, h1, h2⟩ := (h'.1 d o ho).2 r hr
      let ⟨_, h3, h4⟩ := (h.1 d o ho).2 _ h1
      ⟨_, h3, SameRes.trans (E := E) (fun _ _ _ a b => hE.trans a b) h4 h2⟩⟩,
    fun d st o ho =>
    ⟨fun r hr =>
      let ⟨_, h1, h2⟩ := (h.2 d st o ho).1 r hr
      let ⟨_, h3, h4⟩ := (h'.2 d st o ho).1 _ h1
      ⟨_, h3, SameCRes.trans (E := E) (fun _ _ _ a b => hE.trans a b) h2 h4⟩,
     fun r hr =>
      let ⟨_, h1, h2⟩ := (h'.2 d st o ho).2 r hr
      let ⟨_, h3, h4⟩ := (h.2 d st o ho).2 _ h1
      ⟨_, h3, SameCRes.trans (E := E) (fun _ _ _ a b => hE.trans a b) h4 h2⟩⟩⟩

theorem origAt_zero (d : List ι) (o : Nat) (d' : List ι) (_ : origAt d o = .ok d') : Valid d' 0 := valid_zero d'

/-- **C84 (anywhere, on positions of the input).** Replacing the components of a pattern, under
any combinator, by patterns that return the same on positions of the input gives a pattern that
returns the same there. -/
theorem C84_in_anywhere (hE : Equivalence E) (hpol : InsidePol G pol) (hp : All G (Inside G pol) p)
    (hp' : All G (Inside G pol) p') (h : SameShape G G (ActAlikeIn E G pol) p p') : ActAlikeIn E G pol p p' := by
  have hr := runsIn_valid (boundPol_of hpol)
  have go {p p' : Pat ι β} (hp : All G (Inside G pol) p) (h : SameShape G G (ActAlikeIn E G pol) p p')
      (d : List ι) (o : Nat) (ho : Valid d o) : LeE E (parseL G pol d p o) (parseL G pol d p' o) :=
    parseL_shapeK hE.refl origAt_zero (skipsK_valid hpol)
      (R := fun q q' => ActAlikeIn E G pol q q' ∧ Child G q p ∧ Child G q' p')
      (fun d q q' o h ho => ⟨h.1.le ho, fun r hr' => hr.stays (hp.child h.2.1) d o r ho (parses_iff.mpr hr')⟩)
      (sameShape_child h) (hr.builds hp) d o ho
  rw [actAlikeIn_iff]
  refine fun d o ho => ⟨go hp h d o ho, ?_⟩
  have hE' : (fun a b => E b a) = E := by
    funext a b; exact propext ⟨hE.symm, hE.symm⟩
  rw [hE']
  exact go hp' (sameShape_mono (fun _ _ h => h.symm hE) (sameShape_symm h)) d o ho

/-- **C84 (anywhere, constructing, on positions of the input).** -/
theorem C84_in_anywhere_build (hE : Equivalence E) (hpol : InsidePol G pol) (hp : All G (Inside G pol) p)
    (hp' : All G (Inside G pol) p') (h : SameShape G G (WhollyAlikeIn E G H pol) p p') :
    WhollyAlikeIn E G H pol p p' := by
  refine ⟨C84_in_anywhere hE hpol hp hp' (sameShape_mono (fun _ _ h => h.1) h), ?_⟩
  have hr := runsIn_valid (boundPol_of hpol)
  have go {p p' : Pat ι β} (hp : All G (Inside G pol) p) (h : SameShape G G (WhollyAlikeIn E G H pol) p p')
      (d : List ι) (st : σ) (o : Nat) (ho : Valid d o) :
      LeCE E (conL G H pol d p st o) (conL G H pol d p' st o) :=
    conL_shapeK hE.refl origAt_zero (skipsK_valid hpol)
      (R := fun q q' => WhollyAlikeIn E G H pol q q' ∧ Child G q p ∧ Child G q' p')
      (fun d q q' o h ho => ⟨h.1.1.le ho, fun r hr' => hr.stays (hp.child h.2.1) d o r ho (parses_iff.mpr hr')⟩)
      (fun d q q' st o h ho => ⟨h.1.le ho, fun r hr' =>
        con_inside hpol (hp.child h.2.1) ho (constructs_iff.mpr hr')⟩)
      (fun d o r ho hr' => hr.stays hp d o r ho (parses_iff.mpr hr'))
      (sameShape_child h) (hr.builds hp) d st o ho
  rw [buildAlikeIn_iff]
  refine fun d st o ho => ⟨go hp h d st o ho, ?_⟩
  have hE' : (fun a b => E b a) = E := by
    funext a b; exact propext ⟨hE.symm, hE.symm⟩
  rw [hE']
  exact go hp' (sameShape_mono (fun _ _ h => h.symm hE) (sameShape_symm h)) d st o ho

theorem RuleByRule.mono {P Q : Pat ι β → Pat ι β → Prop} (hPQ : ∀ q q', P q q' → Q q q') (h : RuleByRule P G G') :
    RuleByRule Q G G' := by
  intro i
  rcases h i with h | ⟨q, q', h1, h2, h3⟩
  · exact .inl h
  · exact .inr ⟨q, q', h1, h2, hPQ _ _ h3⟩

theorem RuleByRule.symm {P : Pat ι β → Pat ι β → Prop} (h : RuleByRule P G G') :
    RuleByRule (fun q q' => P q' q) G' G := by
  intro i
  rcases h i with ⟨h1, h2⟩ | ⟨q, q', h1, h2, h3⟩
  · exact .inl ⟨h2, h1⟩
  · exact .inr ⟨q', q, h2, h1, h3⟩

/-- **C84 (rules, on positions of the input).** If every recursive pattern is replaced by one
that returns the same on positions of the input, nothing that starts there returns a new
result. -/
theorem C84_in_rules_sound (hE : Equivalence E) (h0 : RuleByRule (ActAlikeIn E G none) G G')
    (hpol : RuleByRule (ActAlikeIn E G pol) G G') (hq : InsidePol G' pol) (hp : All G' (Inside G' pol) p)
    (ho : Valid d o) (r : Res Span) (h : Parses G' pol d p o r) :
    ∃ r', Parses G pol d p o r' ∧ SameRes E r r' := by
  simp only [parses_iff] at h ⊢
  exact parseL_rulesK hE.refl (fun _ _ _ => hE.trans) origAt_zero (runsIn_valid boundPol_none)
    (runsIn_valid (boundPol_of hq)) hq (h0.mono fun _ _ h _ _ ho => (h.symm hE).le ho)
    (hpol.mono fun _ _ h _ _ ho => (h.symm hE).le ho) d p hp o ho r h

theorem C84_in_rules_sound_build (hE : Equivalence E) (h0 : RuleByRule (ActAlikeIn E G none) G G')
    (hpol : RuleByRule (WhollyAlikeIn E G H pol) G G') (hq : InsidePol G' pol) (hp : All G' (Inside G' pol) p)
    (ho : Valid d o) (r : CRes σ (Val β)) (h : Constructs G' H pol d p st o r) :
    ∃ r', Constructs G H pol d p st o r' ∧ SameCRes E r r' := by
  simp only [constructs_iff] at h ⊢
  exact conL_rulesK hE.refl (fun _ _ _ => hE.trans) origAt_zero (runsIn_valid boundPol_none)
    (runsIn_valid (boundPol_of hq)) hq (fun _ hp _ _ _ _ ho hr => con_inside hq hp ho hr)
    (h0.mono fun _ _ h _ _ ho => (h.symm hE).le ho)
    (hpol.mono fun _ _ h _ _ ho => (h.symm hE).1.le ho) (hpol.mono fun _ _ h _ _ _ ho => (h.symm hE).le ho)
    d p hp st o ho r h

/-- **C84 (rules, on positions of the input).** If the patterns are alike there under the old
rules and under the new ones, everything that starts there returns the same under both. -/
theorem C84_in_rules_build (hE : Equivalence E) (h0 : RuleByRule (ActAlikeIn E G none) G G')
    (hpol : RuleByRule (WhollyAlikeIn E G H pol) G G') (h0' : RuleByRule (ActAlikeIn E G' none) G G')
    (hpol' : RuleByRule (WhollyAlikeIn E G' H pol) G G') (hq : InsidePol G pol) (hq' : InsidePol G' pol)
    (hp : All G (Inside G pol) p) (hp' : All G' (Inside G' pol) p) (ho : Valid d o) :
    (∀ r, Constructs G H pol d p st o r → ∃ r', Constructs G' H pol d p st o r' ∧ SameCRes E r r') ∧
    (∀ r', Constructs G' H pol d p st o r' → ∃ r, Constructs G H pol d p st o r ∧ SameCRes E r r') := by
  refine ⟨fun r hr => C84_in_rules_sound_build hE (h0'.symm.mono fun _ _ h => h.symm hE)
    (hpol'.symm.mono fun _ _ h => h.symm hE) hq hp ho r hr, fun r hr => ?_⟩
  obtain ⟨r', h1, h2⟩ := C84_in_rules_sound_build hE h0 hpol hq' hp' ho r hr
  exact ⟨r', h1, h2.flip hE⟩

end Neure
