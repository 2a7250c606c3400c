import Verif.BlameCtor
import Verif.Message
import Verif.PropsTerm
/-!
# C85: an error names its cause

Every error that matching or constructing reports was made up by one pattern, for one of
the reasons listed in `BlameSpec.lean`, and handed on unchanged by those around it.  And
two errors never have the same message.
-/

namespace Neure

set_option linter.unusedSectionVars false
set_option linter.unusedSimpArgs false

open Demo

variable {ι β σ : Type} [Item ι] {G : Rules ι β} {H : Handler ι β σ} {pol : Option (Pat ι β)}
  {p q : Pat ι β} {d : List ι} {o o' : Nat} {e : Error} {st st' : σ} {K : Nat → Prop}

/-! ## Where the patterns stay -/

theorem Speaks.child (h : Speaks G q p) : Child G q p := by
  cases p <;> simp only [Speaks, Child] at h ⊢ <;> first | exact h | exact .inr h | skip
  case ifThen => rcases h with h | h <;> simp [h]

theorem CSpeaks.cchild (h : CSpeaks G q p) : CChild G q p := by
  cases p <;> simp only [CSpeaks, CChild] at h ⊢ <;> first | exact h | exact .inr h

theorem MSpeaks.matchPart (h : MSpeaks q p) : MatchPart q p := by
  cases p <;> simp only [MSpeaks, MatchPart] at h ⊢ <;> exact h

theorem keptIn_any (G : Rules ι β) (pol : Option (Pat ι β)) (d : List ι) : KeptIn G pol d (fun _ => True) (fun _ => True) :=
  ⟨fun _ _ => trivial, fun _ => trivial, fun _ _ _ => trivial, fun _ _ _ => trivial⟩

theorem ckeptIn_any (G : Rules ι β) (H : Handler ι β σ) (pol : Option (Pat ι β)) (d : List ι) :
    CKeptIn G H pol d (fun _ => True) (fun _ => True) :=
  ⟨fun _ _ => trivial, fun _ _ _ => trivial, fun _ _ => ⟨_, keptIn_any G pol d, trivial⟩, fun _ _ _ => trivial,
    fun _ _ _ => trivial⟩

theorem keptIn_valid (hpol : BoundPol G pol) (d : List ι) : KeptIn G pol d (Valid d) (All G (Bounded G pol)) where
  parts h hs := h.child hs.child
  test h := h.child (.inr (.inl rfl))
  moves h ho hr := ((C03_spans_are_valid_slices G pol hpol d _ h _ ho).1 _ _ hr).1
  builds h ho hf := by
    have := h.self d _ ‹_› ho
    rw [hf] at this
    exact this

theorem keptIn_forward (hpol : SafePol G pol) (d : List ι) (o₀ : Nat) :
    KeptIn G pol d (fun o => o₀ ≤ o ∧ o ≤ blen d) (All G (Safe G pol)) where
  parts h hs := h.child hs.child
  test h := h.child (.inr (.inl rfl))
  moves h ho hr := by
    have := (C05_forward_and_in_bounds G pol hpol d _ h _ ho.2).1 _ _ hr
    omega
  builds h ho hf := by
    have := h.self d _ ‹_› ho.2
    rw [hf] at this
    simp only at this
    omega

/-- What is constructed stays on boundaries. -/
def CBounded (G : Rules ι β) (pol : Option (Pat ι β)) (d : List ι) (q : Pat ι β) : Prop :=
  (∀ m, MatchPart m q → All G (Bounded G pol) m) ∧ DynK d (Valid d) q

/-- What is constructed moves forward. -/
def CSafeFwd (G : Rules ι β) (pol : Option (Pat ι β)) (d : List ι) (q : Pat ι β) : Prop :=
  (∀ m, MatchPart m q → All G (Safe G pol) m) ∧ DynForward d q

theorem stayK_valid (hpol : BoundPol G pol) (d : List ι) {m : Pat ι β} (h : All G (Bounded G pol) m) :
    StayK G pol d (Valid d) m := fun o ho =>
  ⟨fun s o' hr => ((C03_spans_are_valid_slices G pol hpol d m h o ho).1 s o' hr).1,
    fun e o' hr => (C03_spans_are_valid_slices G pol hpol d m h o ho).2 e o' hr⟩

theorem con_valid (hpol : BoundPol G pol) (n : Nat) (h : CAll G (CBounded G pol d) p) (ho : Valid d o) :
    Sat (con G H n pol d p st o) (InK (Valid d)) :=
  con_inK n (h.mono fun _ hq => ⟨fun m hm => stayK_valid hpol d (hq.1 m hm), hq.2⟩) ho

theorem ckeptIn_valid (hpol : BoundPol G pol) (d : List ι) :
    CKeptIn G H pol d (Valid d) (CAll G (CBounded G pol d)) where
  parts h hs := h.child hs.cchild
  moves h ho hr := by obtain ⟨n, hn⟩ := hr; exact con_valid hpol n h ho _ hn
  delims h hs := ⟨_, keptIn_valid hpol d, h.self.1 _ hs.matchPart⟩
  test h ho hr := ((C03_spans_are_valid_slices G pol hpol d _ (h.self.1 _ rfl) _ ho).1 _ _ hr).1
  builds h ho hf := by
    have := h.self.2 _ ‹_› ho
    rw [hf] at this
    exact this

theorem ckeptIn_forward (hpol : SafePol G pol) (d : List ι) (o₀ : Nat) :
    CKeptIn G H pol d (fun o => o₀ ≤ o ∧ o ≤ blen d) (CAll G (CSafeFwd G pol d)) where
  parts h hs := h.child hs.cchild
  moves h ho hr := by
    have := (C05_construct_forward hpol _ h _ _ ho.2).1 _ _ _ hr
    omega
  delims h hs := ⟨_, keptIn_forward hpol d o₀, h.self.1 _ hs.matchPart⟩
  test h ho hr := by
    have := (C05_forward_and_in_bounds G pol hpol d _ (h.self.1 _ rfl) _ ho.2).1 _ _ hr
    omega
  builds h ho hf := by
    have := h.self.2 _ ‹_› ho.2
    rw [hf] at this
    simp only at this
    omega

/-! ## The cause of an error -/

theorem explained_of_kept {S : Pat ι β → Prop} (hS : KeptIn G pol d K S)
    (hpol : ∀ k, pol = some k → ∃ S', KeptIn G none d K S' ∧ S' k) (hp : S p) (ho : K o)
    (h : Runs G pol d p o (.err e o')) : Explained G d K pol p o e := by
  obtain ⟨n, hn⟩ := h
  cases pol with
  | none => exact .inl ⟨o, ho, cause_inv n hS hpol hp ho _ hn⟩
  | some k =>
    obtain ⟨S', hS', hk⟩ := hpol k rfl
    simp only [tryMat, matWith, caseR] at hn
    split at hn
    · cases hn
    · cases hn
    · next s o₂ hk' => exact .inl ⟨o₂, hS'.moves hk ho ⟨n, hk'⟩, cause_inv n hS hpol hp (hS'.moves hk ho ⟨n, hk'⟩) _ hn⟩
    · next e₁ o₂ hk' =>
      cases hn
      exact .inr ⟨k, rfl, cause_inv n hS' (fun _ h => by cases h) hk ho _ hk'⟩

/-- **C85.** Every error `try_mat` reports has a cause: a pattern that makes this error up
itself, when tried somewhere, and whose error is handed on unchanged.  No condition at
all: any pattern, any user code, any policy, any input, any position. -/
theorem C85_cause (h : Runs G pol d p o (.err e o')) : Explained G d (fun _ => True) pol p o e :=
  explained_of_kept (keptIn_any G pol d) (fun _ _ => ⟨_, keptIn_any G none d, trivial⟩) trivial trivial h

/-- **C85 (boundaries).** If user code respects boundaries, the position of the failure is one. -/
theorem C85_cause_valid (hpol : BoundPol G pol) (hp : All G (Bounded G pol) p) (ho : Valid d o)
    (h : Runs G pol d p o (.err e o')) : Explained G d (Valid d) pol p o e :=
  explained_of_kept (keptIn_valid hpol d) (fun k hk => ⟨_, keptIn_valid (fun _ h => by cases h) d, hpol k hk⟩) hp ho h

/-- **C85 (forward).** If user code moves forward, the failure lies ahead, inside the input. -/
theorem C85_cause_forward (hpol : SafePol G pol) (hp : All G (Safe G pol) p) (ho : o ≤ blen d)
    (h : Runs G pol d p o (.err e o')) : Explained G d (fun o₁ => o ≤ o₁ ∧ o₁ ≤ blen d) pol p o e :=
  explained_of_kept (keptIn_forward hpol d o) (fun k hk => ⟨_, keptIn_forward (fun _ h => by cases h) d o, hpol k hk⟩) hp
    ⟨Nat.le_refl _, ho⟩ h

/-- "(()" fails, at a closing parenthesis that is missing. -/
example : Runs GP none ['(', '(', ')'] parens 0 (.err .literal 0) ∧ All GP (Bounded GP none) parens ∧
    All GP (Safe GP none) parens ∧ Valid ['(', '(', ')'] 0 :=
  ⟨⟨20, by decide⟩, all_parens trivial trivial trivial trivial trivial, all_parens trivial trivial trivial trivial trivial,
    [], _, rfl, rfl⟩

/-- **C85 (constructing).** -/
theorem C85_construct (h : Constructs G H pol d p st o (.err e st' o')) : CCause G H pol d (fun _ => True) p o e := by
  obtain ⟨n, hn⟩ := h
  exact ccause_inv n (ckeptIn_any G H pol d) (fun _ _ => ⟨_, keptIn_any G none d, trivial⟩) trivial trivial _ hn

theorem C85_construct_valid (hpol : BoundPol G pol) (hp : CAll G (CBounded G pol d) p) (ho : Valid d o)
    (h : Constructs G H pol d p st o (.err e st' o')) : CCause G H pol d (Valid d) p o e := by
  obtain ⟨n, hn⟩ := h
  exact ccause_inv n (ckeptIn_valid hpol d) (fun k hk => ⟨_, keptIn_valid (fun _ h => by cases h) d, hpol k hk⟩) hp ho _ hn

theorem C85_construct_forward (hpol : SafePol G pol) (hp : CAll G (CSafeFwd G pol d) p) (ho : o ≤ blen d)
    (h : Constructs G H pol d p st o (.err e st' o')) :
    CCause G H pol d (fun o₁ => o ≤ o₁ ∧ o₁ ≤ blen d) p o e := by
  obtain ⟨n, hn⟩ := h
  exact ccause_inv n (ckeptIn_forward hpol d o)
    (fun k hk => ⟨_, keptIn_forward (fun _ h => by cases h) d o, hpol k hk⟩) hp ⟨Nat.le_refl _, ho⟩ _ hn

theorem bounded_parens (d : List Char) : CAll GP (CBounded GP none d) parens :=
  call_parens ⟨by rintro m (rfl | rfl) <;> exact all_lit trivial, trivial⟩ ⟨fun m hm => hm.elim, trivial⟩
    ⟨fun m hm => hm.elim, trivial⟩

example : Constructs GP (fun _ _ s st => (.ok s.len, st)) none ['(', '(', ')'] parens () 0 (.err .literal () 0) ∧
    CAll GP (CBounded GP none ['(', '(', ')']) parens ∧ CAll GP (CSafeFwd GP none ['(', '(', ')']) parens :=
  ⟨⟨20, by decide⟩, bounded_parens _,
    call_parens ⟨by rintro m (rfl | rfl) <;> exact all_lit trivial, trivial⟩ ⟨fun m hm => hm.elim, trivial⟩
      ⟨fun m hm => hm.elim, trivial⟩⟩

/-! ## What an error tells -/

theorem Cause.reached (h : Cause G d K pol p o e) (ho : K o) :
    ∃ q o₁ o₂, Reached G pol p q ∧ K o₁ ∧ Own G d o₁ e q ∧ ∃ pol', (pol' = pol ∨ pol' = none) ∧ Parses G pol' d q o₁ (.err e o₂) := by
  induction h with
  | @own pol p o e o₂ h1 h2 => exact ⟨p, o, o₂, .inl .refl, ho, h1, pol, .inl rfl, h2⟩
  | part h1 h2 _ ih =>
    obtain ⟨q, o₁, o₂, hq, h⟩ := ih h2
    refine ⟨q, o₁, o₂, ?_, h⟩
    rcases hq with hq | hq
    · exact .inl ((Desc.step .refl h1.child).trans hq)
    · exact .inr hq
  | skip _ _ h2 _ ih =>
    obtain ⟨q, o₁, o₂, hq, h3, h4, pol', h5, h6⟩ := ih h2
    refine ⟨q, o₁, o₂, ?_, h3, h4, pol', .inr (h5.elim id id), h6⟩
    rcases hq with hq | ⟨_, h, _⟩
    · exact .inr ⟨_, rfl, hq⟩
    · cases h

theorem Explained.reached (h : Explained G d K pol p o e) (ho : K o) :
    ∃ q o₁ o₂, Reached G pol p q ∧ K o₁ ∧ Own G d o₁ e q ∧ ∃ pol', (pol' = pol ∨ pol' = none) ∧ Parses G pol' d q o₁ (.err e o₂) := by
  rcases h with ⟨o₁, h1, h2⟩ | ⟨k, rfl, h2⟩
  · exact h2.reached h1
  · obtain ⟨q, o₁, o₂, hq, h3, h4, pol', h5, h6⟩ := h2.reached ho
    refine ⟨q, o₁, o₂, ?_, h3, h4, pol', .inr (h5.elim id id), h6⟩
    rcases hq with hq | ⟨_, h, _⟩
    · exact .inr ⟨_, rfl, hq⟩
    · cases h

/-- **C85 (somebody failed with it).** The error reported is one that a pattern reached from
`p` (or from the policy) makes up itself, and with which this pattern does fail. -/
theorem C85_somebody (h : Runs G pol d p o (.err e o')) :
    ∃ q o₁ o₂, Reached G pol p q ∧ Own G d o₁ e q ∧
      ∃ pol', (pol' = pol ∨ pol' = none) ∧ Parses G pol' d q o₁ (.err e o₂) := by
  obtain ⟨q, o₁, o₂, h1, _, h⟩ := (C85_cause h).reached trivial
  exact ⟨q, o₁, o₂, h1, h⟩

/-- **C85 (an error nobody makes is never reported).** -/
theorem C85_never (hp : All G (fun q => ∀ d o, ¬ Own G d o e q) p)
    (hpol : ∀ k, pol = some k → All G (fun q => ∀ d o, ¬ Own G d o e q) k) : ¬ Runs G pol d p o (.err e o') := by
  intro h
  obtain ⟨q, o₁, o₂, hq | ⟨k, hk, hq⟩, h1, _⟩ := C85_somebody h
  · exact hp q hq _ _ h1
  · exact hpol k hk q hq _ _ h1

/-- Nested parentheses are never refused by a repetition or a unit. -/
example (d : List Char) (o o' : Nat) : ¬ Runs GP none d parens o (.err .once o') :=
  C85_never (all_parens (fun _ _ h => h) (fun _ _ h => by rcases h with h | ⟨h, _⟩ <;> cases h)
    (fun _ _ h => by cases h) (fun _ _ h => by rcases h with h | ⟨h, _⟩ <;> cases h) (fun _ _ h => by cases h.2))
    fun _ h => by cases h

/-- **C85 (out of bound).** From a boundary, with user code that respects boundaries,
`OutOfBound` is only reported if the user's code says so. -/
theorem C85_out_of_bound (hpol : BoundPol G pol) (hp : All G (Bounded G pol) p) (ho : Valid d o)
    (h : Runs G pol d p o (.err .outOfBound o')) : ∃ q o₁, Reached G pol p q ∧ Valid d o₁ ∧ Chosen d o₁ .outOfBound q := by
  obtain ⟨q, o₁, _, hq, hv, h1, _⟩ := (C85_cause_valid hpol hp ho h).reached ho
  refine ⟨q, o₁, hq, hv, ?_⟩
  cases q
  case assert => cases ‹Bool› <;> simp only [Own, reduceCtorEq] at h1
  all_goals simp only [Own, Off, hv, not_true_eq_false, and_false, false_or, or_false, reduceCtorEq] at h1
  all_goals exact h1

/-- **C85 (empty handles).** `Error::Option` means that a handle nobody set was used, or that the
user's code says so. -/
theorem C85_option (h : Runs G pol d p o (.err .option o')) :
    (∃ i, Reached G pol p (.cell i) ∧ G i = none) ∨ ∃ q o₁, Reached G pol p q ∧ Chosen d o₁ .option q := by
  obtain ⟨q, o₁, _, hq, h1, _⟩ := C85_somebody h
  cases q
  case assert => cases ‹Bool› <;> simp only [Own, reduceCtorEq] at h1
  case cell => exact .inl ⟨_, hq, h1.1⟩
  all_goals simp only [Own, Off, false_and, false_or, or_false, reduceCtorEq] at h1
  all_goals exact .inr ⟨_, o₁, hq, h1⟩

/-- A handle that was never set. -/
example : Runs (β := Nat) G0 none ['a'] (.thn (.lit ['a']) (.cell 7)) 0 (.err .option 0) := ⟨9, by decide⟩

/-- **C85 (alternatives).** The error of `a.or(b)` is that of `b` at the same position; what `a`
said is lost. -/
theorem C85_or {a b : Pat ι β} (h : Parses G pol d (.or a b) o (.err e o')) :
    (∃ o₁, Runs G pol d b o (.err e o₁)) ∧ ∃ e₁ o₁, Runs G pol d a o (.err e₁ o₁) := by
  obtain ⟨n, hn⟩ := h
  cases n with
  | zero => cases hn
  | succ n =>
    simp only [parse, step, caseR] at hn
    split at hn
    · cases hn
    · cases hn
    · cases hn
    · next e₁ o₁ h1 =>
      split at hn
      · cases hn
      · cases hn
      · cases hn
      · next e₂ o₂ h2 =>
        cases hn
        exact ⟨⟨_, n, h2⟩, _, _, n, h1⟩

/-- **C85 (counterexample).** It is not the alternative that came further that is reported. -/
theorem C85_furthest_counterexample :
    Runs (β := Nat) G0 none ['a', 'x'] (.or (.thn (.lit ['a']) (.once (.item '1') .empty)) (.lit ['b'])) 0 (.err .literal 0) ∧
      Runs (β := Nat) G0 none ['a', 'x'] (.thn (.lit ['a']) (.once (.item '1') .empty)) 0 (.err .once 0) :=
  ⟨⟨9, by decide⟩, ⟨9, by decide⟩⟩

/-- **C85 (messages).** Two errors with the same message are the same. -/
theorem C85_messages {a b : Error} (h : a.message = b.message) : a = b := message_inj h

/-! ## C03 for constructing -/

/-- **C03 (constructing).** From a boundary, `construct` only ever leaves the position on one. -/
theorem C03_construct_valid_positions (hpol : BoundPol G pol) (hp : CAll G (CBounded G pol d) p) (ho : Valid d o) :
    (∀ v st' o', Constructs G H pol d p st o (.ok v st' o') → Valid d o') ∧
    (∀ e st' o', Constructs G H pol d p st o (.err e st' o') → Valid d o') :=
  ⟨fun _ _ _ ⟨n, hn⟩ => con_valid hpol n hp ho _ hn, fun _ _ _ ⟨n, hn⟩ => con_valid hpol n hp ho _ hn⟩

/-- **C03 (handlers).** Handlers only see spans that are slices of the input, and positions
that are boundaries: two that agree on those cannot be told apart. -/
theorem C03_handler_sees_slices {H' : Handler ι β σ}
    (hH : ∀ o s st sub, Valid d o → origSub d s.beg s.len = .ok sub → H d o s st = H' d o s st)
    (hpol : BoundPol G pol) (hp : CAll G (CBounded G pol d) p) (ho : Valid d o) (r : CRes σ (Val β)) :
    Constructs G H pol d p st o r ↔ Constructs G H' pol d p st o r := by
  have key : ∀ n, con G H n pol d p st o = con G H' n pol d p st o := fun n =>
    con_congr (K := Valid d) (Good := fun o s => Valid d o ∧ ∃ sub, origSub d s.beg s.len = .ok sub)
      (fun o s st h => hH o s st _ h.1 h.2.choose_spec) n
      (hp.mono fun q hq => ⟨fun m hm => ⟨stayK_valid hpol d (hq.1 m hm), fun o s o' ho hr =>
        ⟨((C03_spans_are_valid_slices G pol hpol d m (hq.1 m hm) o ho).1 s o' hr).1,
          let ⟨sub, h, _⟩ := ((C03_spans_are_valid_slices G pol hpol d m (hq.1 m hm) o ho).1 s o' hr).2; ⟨sub, h⟩⟩⟩, hq.2⟩) ho
  exact exists_congr fun n => by rw [key n]

/-- A handler that panics where the span is no slice, and one that does not. -/
example (d : List Char) (r : CRes Unit (Val Nat)) :
    Constructs GP (fun d _ s st => ((match origSub d s.beg s.len with | .ok l => .ok l.length | _ => .panic), st)) none d
      parens () 0 r ↔
    Constructs GP (fun d _ s st => ((match origSub d s.beg s.len with | .ok l => .ok l.length | _ => .ok 77), st)) none d
      parens () 0 r :=
  C03_handler_sees_slices (fun _ _ _ _ _ h => by simp only [h]) (fun _ h => by cases h) (bounded_parens d) ⟨[], d, rfl, rfl⟩ r

/-- **C03 (extracting).** `ctx.ctor` never fails for want of a slice: it is as if the handler
that extracts the text could not fail. -/
theorem C03_extract_never_fails {G : Rules ι (List ι)} {pol : Option (Pat ι (List ι))} {p : Pat ι (List ι)}
    (hpol : BoundPol G pol) (hp : CAll G (CBounded G pol d) p) (ho : Valid d o) (r : CRes σ (Val (List ι))) :
    ∃ H' : Handler ι (List ι) σ, H'.Total ∧ (Constructs G extractH pol d p st o r ↔ Constructs G H' pol d p st o r) := by
  refine ⟨fun d _ s st => (.ok (match origSub d s.beg s.len with | .ok l => l | _ => []), st),
    fun d _ s st => ⟨_, _, rfl⟩, C03_handler_sees_slices (fun o s st sub _ h => ?_) hpol hp ho r⟩
  simp only [extractH, h]

end Neure
