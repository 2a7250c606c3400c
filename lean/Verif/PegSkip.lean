import Verif.PegComplete
import Verif.PropsPolicy
/-!
# Parsing expressions for contexts that skip

The reading of a pattern in a context with a skip policy (`skip_before`,
`PolicyCtx`) as a parsing expression: the skipped expression `W` is written out
wherever the context skips.  Then the lemmas for C62.
-/

namespace Neure

set_option linter.unusedSectionVars false
set_option linter.unusedSimpArgs false

/-! ## Specification -/

/-- At most `n` times `W e`; when an attempt fails, what `W` skipped before it
stays skipped. -/
def Peg.uptoIn {ι : Type} (W e : Peg ι) : Nat → Peg ι
  | 0 => .eps
  | n + 1 => .alt (.seq (.seq W e) (Peg.uptoIn W e n)) (.opt W)

/-- `m` to `n` times `W e` (see `uptoIn`); without `n`, `(W e)…(W e) (W e)* W?`. -/
def Peg.repIn {ι : Type} (W e : Peg ι) (m : Nat) : Option Nat → Peg ι
  | none => .seq (Peg.rep (.seq W e) m none) (.opt W)
  | some n => Peg.times (.seq W e) (Peg.uptoIn W e (n - m)) m

variable {ι β : Type} [Item ι]

/-- Which parsing expression a pattern stands for when the context skips `W`
before each part. -/
inductive AsPegIn (W : Peg ι) : Pat ι β → Peg ι → Prop where
  | leaf {p e} : Primitive p → AsPeg p e → AsPegIn W p e
  | cell (i) : AsPegIn W (.cell i) (.nt i)
  | map {p e} (f) : AsPegIn W p e → AsPegIn W (.map p f) (.seq W e)
  | pat {p e} : AsPegIn W p e → AsPegIn W (.pat p) (.seq W e)
  | thn {a b ea eb} : AsPegIn W a ea → AsPegIn W b eb →
      AsPegIn W (.thn a b) (.seq (.seq W ea) (.seq W eb))
  | pre {a b ea eb} : AsPegIn W a ea → AsPegIn W b eb →
      AsPegIn W (.pre a b) (.seq (.seq W ea) (.seq W eb))
  | suf {a b ea eb} : AsPegIn W a ea → AsPegIn W b eb →
      AsPegIn W (.suf a b) (.seq (.seq W ea) (.seq W eb))
  | enclose {a b c ea eb ec} : AsPegIn W a ea → AsPegIn W b eb → AsPegIn W c ec →
      AsPegIn W (.enclose a b c) (.seq (.seq W ea) (.seq (.seq W eb) (.seq W ec)))
  | sepOnce {a b c ea eb ec} : AsPegIn W a ea → AsPegIn W b eb → AsPegIn W c ec →
      AsPegIn W (.sepOnce a b c) (.seq (.seq W ea) (.seq (.seq W eb) (.seq W ec)))
  | ifThen {a t b ea et eb} : AsPegIn W a ea → AsPegIn W t et → AsPegIn W b eb →
      AsPegIn W (.ifThen a t b)
        (.seq (.seq W ea) (.alt (.seq (.seq W et) (.seq W eb)) (.not (.seq W et))))
  | or {a b ea eb} : AsPegIn W a ea → AsPegIn W b eb →
      AsPegIn W (.or a b) (.alt (.seq W ea) (.seq W eb))
  | opt {p e} : AsPegIn W p e → AsPegIn W (.opt p) (.opt (.seq W e))
  | isnt {p e} : AsPegIn W p e → AsPegIn W (.assert p false) (.not (.seq W e))
  | is {p e} : AsPegIn W p e → AsPegIn W (.assert p true) (.and (.seq W e))
  | choice_nil (er) : AsPegIn W (.choice er []) .fail
  | choice_cons (er) {p e v items es} : AsPegIn W p e → AsPegIn W (.choice er items) es →
      AsPegIn W (.choice er ((p, v) :: items)) (.alt (.seq W e) es)
  | rep {p e} (r m n) : AsPegIn W p e → Counts r m n → AsPegIn W (.rep p r) (.repIn W e m n)
  | collect {p e} (m) : AsPegIn W p e → AsPegIn W (.collect p m) (.repIn W e m none)
  | sep {p s e es} (min) : AsPegIn W p e → AsPegIn W s es →
      AsPegIn W (.sep p s true min) (.seq (.list (.seq W e) (.seq W es) min) (.opt W))
  | sepCollect {p s e es} (min) : AsPegIn W p e → AsPegIn W s es →
      AsPegIn W (.sepCollect p s true min) (.seq (.list (.seq W e) (.seq W es) min) (.opt W))

/-- The rules and the grammar agree, nonterminal by nonterminal. -/
def RulesAsPegIn (W : Peg ι) (G : Rules ι β) (R : Nat → Peg ι) : Prop :=
  ∀ i, (∃ q, G i = some q ∧ AsPegIn W q (R i)) ∨ (G i = none ∧ R i = .fail)

/-- On a plain context the pattern `q` does what the parsing expression `W`
does.  (C58 gives this for patterns that read as `W`.) -/
structure SkipReads (G : Rules ι β) (R : Nat → Peg ι) (q : Pat ι β) (W : Peg ι) : Prop where
  run : ∀ pre x res, Runs G none (pre ++ x) q (blen pre) res →
    (∃ t y s, x = t ++ y ∧ Ford R W x (some y) ∧ res = .ok s (blen pre + blen t)) ∨
    (Ford R W x none ∧ ∃ er, res = .err er (blen pre))
  halt : ∀ pre x r, Ford R W x r → ∃ res, Runs G none (pre ++ x) q (blen pre) res

/-- Skipping again right after skipping skips nothing. -/
def SkipOnce (R : Nat → Peg ι) (W : Peg ι) : Prop := ∀ x y, Ford R W x (some y) → Ford R W y (some y)

/-! ## Lemmas -/

namespace Skip

variable {G : Rules ι β} {R : Nat → Peg ι} {q : Pat ι β} {W : Peg ι}

theorem opt_ok {e : Peg ι} {x r} (h : Ford R (.opt e) x r) : r ≠ none := by
  cases h with
  | alt_1 => simp
  | alt_2 _ h => cases h; simp

theorem uptoIn_ok {e : Peg ι} {n : Nat} {x r} (h : Ford R (Peg.uptoIn W e n) x r) : r ≠ none := by
  cases n with
  | zero => cases h; simp
  | succ n =>
    cases h with
    | alt_1 => simp
    | alt_2 _ h => exact opt_ok h

theorem repIn_more {e : Peg ι} {m : Nat} {n : Option Nat} {x y r} (hmn : ∀ k, n = some k → m ≤ k)
    (hn : n ≠ some 0) (h1 : Ford R (.seq W e) x (some y))
    (h2 : Ford R (.repIn W e (m - 1) (n.map (· - 1))) y r) : Ford R (.repIn W e m n) x r := by
  cases n with
  | none =>
    cases h2 with
    | seq_ok ha hb => exact .seq_ok (ford_rep_more (by simp) (by simp) h1 ha) hb
    | seq_fail ha => exact .seq_fail (ford_rep_more (by simp) (by simp) h1 ha)
  | some k =>
    cases k with
    | zero => exact absurd rfl hn
    | succ k =>
      cases m with
      | zero =>
        cases r with
        | none => exact absurd rfl (uptoIn_ok h2)
        | some z => exact .alt_1 (.seq_ok h1 h2)
      | succ m =>
        simp only [Option.map_some, Nat.add_sub_cancel, Peg.repIn] at h2
        simp only [Peg.repIn, Nat.add_sub_add_right]
        exact .seq_ok h1 h2

theorem repIn_stop {e : Peg ι} {m : Nat} {n : Option Nat} {x z}
    (hn : n ≠ some 0) (h1 : Ford R (.seq W e) x none) (hz : Ford R (.opt W) x (some z)) :
    Ford R (.repIn W e m n) x (if m = 0 then some z else none) := by
  cases n with
  | none =>
    have := ford_rep_stop (m := m) (n := none) (by simp) h1
    cases m with
    | zero => exact .seq_ok this hz
    | succ m => exact .seq_fail this
  | some k =>
    cases m with
    | zero =>
      cases k with
      | zero => exact absurd rfl hn
      | succ k => exact .alt_2 (.seq_fail h1) hz
    | succ m => exact .seq_fail h1

/-- Results of `try_parse` in the skipping context. -/
def ShapeIn (R : Nat → Peg ι) (W : Peg ι) (pre x : List ι) (r : Option (List ι)) (res : Res Span) : Prop :=
  match r with
  | some y => ∃ t s, x = t ++ y ∧ res = .ok s (blen pre + blen t) ∧ blen pre ≤ s.beg ∧
      s.stop ≤ blen pre + blen t
  | none => ∃ e w z, x = w ++ z ∧ res = .err e (blen pre + blen w) ∧
      (w = [] ∨ Ford R (.opt W) x (some z))

def At (R : Nat → Peg ι) (W e : Peg ι) (pre x : List ι) (res : Res Span) : Prop :=
  ∃ r, Ford R e x r ∧ ShapeIn R W pre x r res

theorem At.fail {e : Peg ι} {pre x : List ι} {er : Error} (h : Ford R e x none) :
    At R W e pre x (.err er (blen pre)) := ⟨none, h, er, [], x, rfl, by simp, .inl rfl⟩

theorem idem {x y z : List ι} (hi : SkipOnce R W) (h : Ford R W x (some y))
    (h' : Ford R (.opt W) y (some z)) : z = y := by
  cases h' with
  | alt_1 h' => exact Option.some.inj (h'.unique (hi _ _ h))
  | alt_2 h' _ => cases h'.unique (hi _ _ h)

/-- Results of `try_mat`: skip, then try. -/
def MatAt (R : Nat → Peg ι) (W e : Peg ι) (pre x : List ι) (res : Res Span) : Prop :=
  (∃ t y s, x = t ++ y ∧ Ford R (.seq W e) x (some y) ∧ res = .ok s (blen pre + blen t) ∧
    blen pre ≤ s.beg ∧ s.stop ≤ blen pre + blen t) ∨
  (∃ er w z, x = w ++ z ∧ Ford R (.seq W e) x none ∧ Ford R (.opt W) x (some z) ∧
    res = .err er (blen pre + blen w))

theorem MatAt.panic {e : Peg ι} {pre x : List ι} (h : MatAt R W e pre x .panic) : False := by
  rcases h with ⟨t, y, s, _, _, h, _⟩ | ⟨er, w, z, _, _, _, h⟩ <;> cases h

theorem MatAt.ok {e : Peg ι} {pre x : List ι} {s o} (h : MatAt R W e pre x (.ok s o)) :
    ∃ t y, x = t ++ y ∧ Ford R (.seq W e) x (some y) ∧ o = blen pre + blen t ∧
      blen pre ≤ s.beg ∧ s.stop ≤ blen pre + blen t := by
  rcases h with ⟨t, y, s, hx, hf, h, hb, hs⟩ | ⟨er, w, z, _, _, _, h⟩
  · cases h; exact ⟨t, y, hx, hf, rfl, hb, hs⟩
  · cases h

theorem MatAt.err {e : Peg ι} {pre x : List ι} {er o} (h : MatAt R W e pre x (.err er o)) :
    ∃ w z, x = w ++ z ∧ Ford R (.seq W e) x none ∧ Ford R (.opt W) x (some z) ∧ o = blen pre + blen w := by
  rcases h with ⟨t, y, s, hx, hf, h, hb, hs⟩ | ⟨er, w, z, hx, h1, h2, h⟩
  · cases h
  · cases h; exact ⟨w, z, hx, h1, h2, rfl⟩

theorem MatAt.none {e : Peg ι} {pre x : List ι} {er o} (h : MatAt R W e pre x (.err er o)) :
    Ford R (.seq W e) x none := by
  obtain ⟨_, _, _, h, _⟩ := h.err; exact h

/-- Two consecutive spans. -/
theorem addIn {t s : Span} {o : Nat} (h1 : t.stop ≤ o) (h2 : o ≤ s.beg) :
    t.addAssign s = some ⟨t.beg, s.stop - t.beg⟩ ∧ t.beg ≤ s.stop := by
  have : t.beg ≤ s.stop := by simp only [Span.stop] at *; omega
  refine ⟨addAssign_eq.mpr ⟨?_, ?_, rfl, ?_⟩, this⟩ <;> simp only [Span.stop] at * <;> omega

def SoundN (W : Peg ι) (G : Rules ι β) (R : Nat → Peg ι) (q : Pat ι β) (n : Nat) : Prop :=
  ∀ p e, AsPegIn W p e → ∀ pre x res, parse G n (some q) (pre ++ x) p (blen pre) = some res →
    At R W e pre x res

def SoundM (W : Peg ι) (G : Rules ι β) (R : Nat → Peg ι) (q : Pat ι β) (n : Nat) : Prop :=
  ∀ p e, AsPegIn W p e → ∀ pre x res,
    matWith (parse G n) (some q) (pre ++ x) p (blen pre) = some res → MatAt R W e pre x res

theorem soundM (hq : SkipReads G R q W) (hi : SkipOnce R W) {n : Nat} (ih : SoundN W G R q n) : SoundM W G R q n := by
  intro p e hp pre x res h
  simp only [matWith] at h
  rw [caseR_some] at h
  rcases h with ⟨h1, rfl⟩ | ⟨s, o1, h1, h2⟩ | ⟨er, o1, h1, h2⟩
  · rcases hq.run pre x _ (runs_plain.mpr ⟨n, h1⟩) with ⟨_, _, _, _, _, h⟩ | ⟨_, _, h⟩ <;> cases h
  · rcases hq.run pre x _ (runs_plain.mpr ⟨n, h1⟩) with ⟨t, y, s', rfl, hf, h⟩ | ⟨_, _, h⟩
    · cases h
      rw [← blen_append, ← List.append_assoc] at h2
      obtain ⟨r, hf2, hs⟩ := ih p e hp (pre ++ t) y res h2
      cases r with
      | some z =>
        obtain ⟨t', s'', rfl, rfl, hb, hs⟩ := hs
        refine .inl ⟨t ++ t', z, s'', by simp, .seq_ok hf hf2, by simp [blen_append, Nat.add_assoc], ?_, ?_⟩
        · rw [blen_append] at hb; omega
        · simp only [blen_append] at hs ⊢; omega
      | none =>
        obtain ⟨er, w, z, rfl, rfl, hw⟩ := hs
        have : w = [] := by
          rcases hw with h | h
          · exact h
          · have := idem hi hf h
            simpa using congrArg List.length this
        subst this
        exact .inr ⟨er, t, z, rfl, .seq_ok hf hf2, .alt_1 hf, by simp [blen_append]⟩
    · cases h
  · rcases hq.run pre x _ (runs_plain.mpr ⟨n, h1⟩) with ⟨_, _, _, _, _, h⟩ | ⟨hf, er', h⟩
    · cases h
    · cases h; cases h2
      exact .inr ⟨er, [], x, rfl, .seq_fail hf, .alt_2 hf .eps, by simp⟩

theorem sound_leaf {p : Pat ι β} {e : Peg ι} (hp : Primitive p) (ha : AsPeg p e) {n : Nat}
    {pre x : List ι} {res} (h : parse G n (some q) (pre ++ x) p (blen pre) = some res) :
    At R W e pre x res := by
  have h0 : parseL G none (pre ++ x) p (blen pre) = some res := by
    rw [primitive_policy_free hp none (some q)]; exact parses_iff.mp ⟨n, h⟩
  have conv : ∀ {p : Pat ι β} {e : Peg ι}, LeafOk G R p e →
      parseL G none (pre ++ x) p (blen pre) = some res → At R W e pre x res := by
    intro p e hl h0
    obtain ⟨n, h0⟩ := parses_iff.mpr h0
    obtain ⟨r, hf, hs⟩ := hl.sound h0
    refine ⟨r, hf, ?_⟩
    cases r with
    | some y => obtain ⟨t, hx, rfl⟩ := hs; exact ⟨t, _, hx, rfl, Nat.le_refl _, Nat.le_refl _⟩
    | none => obtain ⟨er, rfl⟩ := hs; exact ⟨er, [], x, rfl, by simp, .inl rfl⟩
  cases ha with
  | empty => exact conv pegLeaf_empty h0
  | fail => exact conv pegLeaf_fail h0
  | anchorEnd => exact conv pegLeaf_anchorEnd h0
  | consumeAll => exact conv pegLeaf_consumeAll h0
  | lit l => exact conv (pegLeaf_lit l) h0
  | once u => exact conv (pegLeaf_once u) h0
  | many0 u => exact conv (pegLeaf_many0 u) h0
  | many1 u => exact conv (pegLeaf_many1 u) h0
  | optU u => exact conv (pegLeaf_optU u) h0
  | between u m n hu hmn => exact conv (pegLeaf_between u m n hu hmn) h0
  | times u r m n hu hc => exact conv (pegLeaf_times u r m n hu hc) h0
  | thenU u v hu hv => exact conv (pegLeaf_thenU u v hu hv) h0
  | _ => exact absurd hp id

theorem sound_repLoop {n : Nat} (ih : SoundM W G R q n) {p : Pat ι β} {e : Peg ι} (hp : AsPegIn W p e)
    {more ok : Nat → Bool} {m : Nat} {hi : Option Nat} (hl : LoopIs more ok m hi) (er : Error)
    (fuel c : Nat) (hc : ∀ h, hi = some h → c ≤ h) (pre dn x : List ι) (tot : Span)
    (hb : tot.beg = blen pre) (hs : tot.stop ≤ blen (pre ++ dn)) (res : Res Span)
    (h : repLoop (matWith (parse G n) (some q) (pre ++ dn ++ x)) p more (finish ok er (blen pre)) fuel c
      tot (blen (pre ++ dn)) = some res) :
    ∃ r, Ford R (.repIn W e (m - c) (hi.map (· - c))) x r ∧
      match r with
      | some y => ∃ t s, x = t ++ y ∧ res = .ok s (blen pre + blen (dn ++ t)) ∧ blen pre ≤ s.beg ∧
          s.stop ≤ blen pre + blen (dn ++ t)
      | none => ∃ e, res = .err e (blen pre) := by
  induction fuel generalizing c dn x tot with
  | zero => simp [repLoop] at h
  | succ fuel ihf =>
    simp only [repLoop] at h
    split at h
    · next hm =>
      rw [hl.more_iff] at hm
      have hne : hi.map (· - c) ≠ some 0 := by
        cases hi with
        | none => simp
        | some k => have := hm k rfl; simp; omega
      rw [caseR_some] at h
      rcases h with ⟨h1, rfl⟩ | ⟨s, o1, h1, h2⟩ | ⟨e1, o1, h1, h2⟩
      · exact (ih p e hp _ _ _ h1).panic.elim
      · obtain ⟨t, y, rfl, hf, rfl, hb1, hs1⟩ := (ih p e hp _ _ _ h1).ok
        obtain ⟨hadd, hle⟩ := addIn hs hb1
        rw [addK, hadd] at h2
        simp only at h2
        have := ihf (c + 1) (fun k hk => by have := hm k hk; omega) (dn ++ t) y
          ⟨tot.beg, s.stop - tot.beg⟩ hb
          (by simp only [Span.stop, blen_append] at *; omega) (by
          simpa [blen_append, Nat.add_assoc] using h2)
        obtain ⟨r, hr, hs⟩ := this
        refine ⟨r, repIn_more ?_ hne hf (y := y) ?_, ?_⟩
        · intro k hk
          cases hi with
          | none => cases hk
          | some k' => have := hl.le k' rfl; simp at hk; omega
        · rw [show m - c - 1 = m - (c + 1) by omega]
          rw [Option.map_map]
          exact hr
        · cases r with
          | none => exact hs
          | some z =>
            obtain ⟨t', s', rfl, hs⟩ := hs
            exact ⟨t ++ t', s', by simp, by simpa [blen_append, Nat.add_assoc] using hs⟩
      · obtain ⟨w, z, rfl, hf, hw, rfl⟩ := (ih p e hp _ _ _ h1).err
        have hr := repIn_stop (m := m - c) hne hf hw
        have hok := hl.ok_iff c
        by_cases hmc : m ≤ c
        · rw [if_pos (by omega)] at hr
          have : ok c = true := hok.mpr ⟨hmc, hc⟩
          simp only [finish, this, if_true, Option.some.injEq] at h2
          refine ⟨_, hr, w, tot, rfl, ?_, by omega, ?_⟩
          · simpa [blen_append, Nat.add_assoc] using h2.symm
          · simp only [blen_append] at *; omega
        · rw [if_neg (by omega)] at hr
          refine ⟨_, hr, er, ?_⟩
          have : ok c = false := by
            cases hh : ok c with
            | false => rfl
            | true => exact absurd (hok.mp hh).1 hmc
          simp only [finish, this, Bool.false_eq_true, if_false, Option.some.injEq] at h2
          exact h2.symm
    · next hm =>
      have : ∃ k, hi = some k ∧ k = c := by
        cases hi with
        | none => exact absurd ((hl.more_iff c).mpr (by simp)) hm
        | some k =>
          refine ⟨k, rfl, ?_⟩
          have h1 := hc k rfl
          have h2 : ¬ c < k := fun hlt => hm ((hl.more_iff c).mpr (by simpa using hlt))
          omega
      obtain ⟨k, rfl, rfl⟩ := this
      have hmk := hl.le k rfl
      have hr : Ford R (.repIn W e (m - k) ((some k).map (· - k))) x (some x) := by
        rw [show m - k = 0 by omega]; simp only [Option.map_some, Nat.sub_self]; exact .eps
      have : ok k = true := (hl.ok_iff k).mpr ⟨hmk, hc⟩
      simp only [finish, this, if_true, Option.some.injEq] at h
      refine ⟨_, hr, [], tot, rfl, by simpa [blen_append] using h.symm, by omega, ?_⟩
      simpa [blen_append] using hs

theorem sound_rep {n : Nat} (ih : SoundM W G R q n) {p : Pat ι β} {e : Peg ι} (hp : AsPegIn W p e)
    {more ok : Nat → Bool} {m : Nat} {hi : Option Nat} (hl : LoopIs more ok m hi) (er : Error)
    {fuel : Nat} {pre x : List ι} {res : Res Span}
    (h : repLoop (matWith (parse G n) (some q) (pre ++ x)) p more (finish ok er (blen pre)) fuel 0
      ⟨blen pre, 0⟩ (blen pre) = some res) : At R W (.repIn W e m hi) pre x res := by
  have := sound_repLoop ih hp hl er fuel 0 (by simp) pre [] x ⟨blen pre, 0⟩ rfl (by simp [Span.stop]) res
    (by simpa using h)
  obtain ⟨r, hr, hs⟩ := this
  have h0 : hi.map (· - 0) = hi := by cases hi <;> simp
  rw [h0] at hr
  refine ⟨r, hr, ?_⟩
  cases r with
  | some y => simpa [ShapeIn] using hs
  | none => obtain ⟨er, rfl⟩ := hs; exact ⟨er, [], x, rfl, by simp, .inl rfl⟩

theorem sound_sepLoop {n : Nat} (ih : SoundM W G R q n) {p s : Pat ι β} {e es : Peg ι} (hp : AsPegIn W p e)
    (hs : AsPegIn W s es) (min : Nat) (er : Error) (fuel c : Nat) (pre dn x : List ι) (tot : Span)
    (hb : tot.beg = blen pre) (htot : tot.stop ≤ blen (pre ++ dn)) (res : Res Span)
    (h : sepLoop (matWith (parse G n) (some q) (pre ++ dn ++ x)) p s true (fun _ => true)
      (finish (fun c => decide (c ≥ min)) er (blen pre)) fuel c tot (blen (pre ++ dn)) = some res) :
    ∃ r, Ford R (.seq (.list (.seq W e) (.seq W es) (min - c)) (.opt W)) x r ∧
      match r with
      | some y => ∃ t s, x = t ++ y ∧ res = .ok s (blen pre + blen (dn ++ t)) ∧ blen pre ≤ s.beg ∧
          s.stop ≤ blen pre + blen (dn ++ t)
      | none => ∃ e, res = .err e (blen pre) := by
  induction fuel generalizing c dn x tot with
  | zero => simp [sepLoop] at h
  | succ fuel ihf =>
    simp only [sepLoop, if_true] at h
    rw [caseR_some] at h
    rcases h with ⟨h1, rfl⟩ | ⟨sp, o1, h1, h2⟩ | ⟨e1, o1, h1, h2⟩
    · exact (ih p e hp _ _ _ h1).panic.elim
    · obtain ⟨t, y, rfl, hf, rfl, hb1, hs1⟩ := (ih p e hp _ _ _ h1).ok
      have hd : pre ++ dn ++ (t ++ y) = pre ++ dn ++ t ++ y := by simp
      have ho : blen (pre ++ dn) + blen t = blen (pre ++ dn ++ t) := (blen_append _ _).symm
      obtain ⟨hadd, hle⟩ := addIn htot hb1
      rw [ho] at hs1
      rw [hd, ho] at h2
      rw [caseR_some] at h2
      rcases h2 with ⟨h2, rfl⟩ | ⟨ss, o2, h2, h3⟩ | ⟨e1, o2, h2, h3⟩
      · exact (ih s es hs _ _ _ h2).panic.elim
      · obtain ⟨t2, z, rfl, hf2, rfl, hb2, hs2⟩ := (ih s es hs _ _ _ h2).ok
        have hst : (⟨tot.beg, sp.stop - tot.beg⟩ : Span).stop = sp.stop := by
          simp only [Span.stop] at hle ⊢; omega
        obtain ⟨hadd2, hle2⟩ := addIn (t := ⟨tot.beg, sp.stop - tot.beg⟩) (by rw [hst]; exact hs1) hb2
        rw [addK, hadd] at h3
        simp only at h3
        rw [addK, hadd2] at h3
        simp only at h3
        have := ihf (c + 1) (dn ++ t ++ t2) z ⟨tot.beg, ss.stop - tot.beg⟩ hb
          (by simp only [Span.stop, blen_append] at *; omega)
          (by simpa [blen_append, Nat.add_assoc] using h3)
        obtain ⟨r, hr, hs⟩ := this
        refine ⟨r, ?_, ?_⟩
        · rw [show min - (c + 1) = min - c - 1 by omega] at hr
          cases hr with
          | seq_ok ha hb => exact .seq_ok (ford_list_more hf hf2 ha) hb
          | seq_fail ha => exact .seq_fail (ford_list_more hf hf2 ha)
        · cases r with
          | none => exact hs
          | some w =>
            obtain ⟨t', s', rfl, hs⟩ := hs
            exact ⟨t ++ t2 ++ t', s', by simp, by simpa [blen_append, Nat.add_assoc] using hs⟩
      · obtain ⟨w, z, rfl, hf2, hw, rfl⟩ := (ih s es hs _ _ _ h2).err
        rw [addK, hadd] at h3
        simp only at h3
        have hl := ford_list_last (k := min - c) hf hf2
        by_cases hmc : min ≤ c + 1
        · rw [if_pos (by omega)] at hl
          simp only [finish, ge_iff_le, hmc, decide_true, if_true, Option.some.injEq] at h3
          refine ⟨_, .seq_ok hl hw, t ++ w, ⟨tot.beg, sp.stop - tot.beg⟩, by simp, ?_, ?_, ?_⟩
          · simpa [blen_append, Nat.add_assoc] using h3.symm
          · simp only; omega
          · simp only [Span.stop, blen_append] at *; omega
        · rw [if_neg (by omega)] at hl
          refine ⟨_, .seq_fail hl, er, ?_⟩
          simp only [finish, ge_iff_le, hmc, decide_false, Bool.false_eq_true, if_false,
            Option.some.injEq] at h3
          exact h3.symm
    · obtain ⟨w, z, rfl, hf, hw, rfl⟩ := (ih p e hp _ _ _ h1).err
      have hl := ford_list_stop (s := .seq W es) (k := min - c) hf
      by_cases hmc : min ≤ c
      · rw [if_pos (by omega)] at hl
        simp only [finish, ge_iff_le, hmc, decide_true, if_true, Option.some.injEq] at h2
        refine ⟨_, .seq_ok hl hw, w, tot, rfl, ?_, by omega, ?_⟩
        · simpa [blen_append, Nat.add_assoc] using h2.symm
        · simp only [Span.stop, blen_append] at *; omega
      · rw [if_neg (by omega)] at hl
        refine ⟨_, .seq_fail hl, er, ?_⟩
        simp only [finish, ge_iff_le, hmc, decide_false, Bool.false_eq_true, if_false,
          Option.some.injEq] at h2
        exact h2.symm

theorem sound_sep {n : Nat} (ih : SoundM W G R q n) {p s : Pat ι β} {e es : Peg ι} (hp : AsPegIn W p e)
    (hs : AsPegIn W s es) {min : Nat} {er : Error} {fuel : Nat} {pre x : List ι} {res : Res Span}
    (h : sepLoop (matWith (parse G n) (some q) (pre ++ x)) p s true (fun _ => true)
      (finish (fun c => decide (c ≥ min)) er (blen pre)) fuel 0
      ⟨blen pre, 0⟩ (blen pre) = some res) :
    At R W (.seq (.list (.seq W e) (.seq W es) min) (.opt W)) pre x res := by
  have := sound_sepLoop ih hp hs min er fuel 0 pre [] x ⟨blen pre, 0⟩ rfl (by simp [Span.stop]) res
    (by simpa using h)
  obtain ⟨r, hr, hs⟩ := this
  refine ⟨r, hr, ?_⟩
  cases r with
  | some y => simpa [ShapeIn] using hs
  | none => obtain ⟨er, rfl⟩ := hs; exact ⟨er, [], x, rfl, by simp, .inl rfl⟩

theorem sound_seq2 {n : Nat} (ih : SoundM W G R q n) {a b : Pat ι β} {ea eb : Peg ι} (ha : AsPegIn W a ea)
    (hb : AsPegIn W b eb) {pre x : List ι} {res : Res Span}
    (h : seq2 (matWith (parse G n) (some q) (pre ++ x)) a b (blen pre) = some res) :
    At R W (.seq (.seq W ea) (.seq W eb)) pre x res := by
  rw [seq2, caseR_some] at h
  rcases h with ⟨h1, rfl⟩ | ⟨s, o1, h1, h2⟩ | ⟨e1, o1, h1, h2⟩
  · exact (ih a ea ha _ _ _ h1).panic.elim
  · obtain ⟨t, y, rfl, hf, rfl, hb1, hs1⟩ := (ih a ea ha _ _ _ h1).ok
    rw [← List.append_assoc, ← blen_append, caseR_some] at h2
    rw [← blen_append] at hs1
    rcases h2 with ⟨h2, rfl⟩ | ⟨s2, o2, h2, h3⟩ | ⟨e1, o2, h2, h3⟩
    · exact (ih b eb hb _ _ _ h2).panic.elim
    · obtain ⟨t2, z, rfl, hf2, rfl, hb2, hs2⟩ := (ih b eb hb _ _ _ h2).ok
      obtain ⟨hadd, hle⟩ := addIn hs1 hb2
      rw [addK, hadd] at h3
      cases h3
      refine ⟨some z, .seq_ok hf hf2, t ++ t2, ⟨s.beg, s2.stop - s.beg⟩, by simp, ?_, hb1, ?_⟩
      · simp [blen_append, Nat.add_assoc]
      · simp only [Span.stop, blen_append] at *; omega
    · cases h3
      exact At.fail (.seq_ok hf (ih b eb hb _ _ _ h2).none)
  · cases h2
    exact At.fail (.seq_fail (ih a ea ha _ _ _ h1).none)

theorem sound_three {n : Nat} (ih : SoundM W G R q n) {b c : Pat ι β} {eb ec : Peg ι}
    (hb : AsPegIn W b eb) (hc : AsPegIn W c ec) {pre t y : List ι} {s1 : Span} {res : Res Span}
    (hb1 : blen pre ≤ s1.beg) (hs1 : s1.stop ≤ blen pre + blen t)
    (h : caseR (matWith (parse G n) (some q) (pre ++ (t ++ y)) b (blen pre + blen t))
        (fun s2 o2 => addK s1 s2 fun s12 => caseR (matWith (parse G n) (some q) (pre ++ (t ++ y)) c o2)
          (fun s3 o3 => addK s12 s3 fun s => some (.ok s o3))
          (fun e _ => some (.err e (blen pre))))
        (fun e _ => some (.err e (blen pre))) = some res) :
    (∃ z t' s, y = t' ++ z ∧ Ford R (.seq (.seq W eb) (.seq W ec)) y (some z) ∧
      res = .ok s (blen pre + blen (t ++ t')) ∧ blen pre ≤ s.beg ∧ s.stop ≤ blen pre + blen (t ++ t')) ∨
    (Ford R (.seq (.seq W eb) (.seq W ec)) y none ∧ ∃ e, res = .err e (blen pre)) := by
  rw [← List.append_assoc, ← blen_append, caseR_some] at h
  rw [← blen_append] at hs1
  rcases h with ⟨h2, rfl⟩ | ⟨s2, o2, h2, h3⟩ | ⟨e1, o2, h2, h3⟩
  · exact (ih b eb hb _ _ _ h2).panic.elim
  · obtain ⟨t2, z, rfl, hf2, rfl, hb2, hs2⟩ := (ih b eb hb _ _ _ h2).ok
    obtain ⟨hadd, hle⟩ := addIn hs1 hb2
    rw [addK, hadd] at h3
    simp only at h3
    rw [← List.append_assoc (pre ++ t), ← blen_append, caseR_some] at h3
    rw [← blen_append] at hs2
    rcases h3 with ⟨h3, rfl⟩ | ⟨s3, o3, h3, h4⟩ | ⟨e1, o3, h3, h4⟩
    · exact (ih c ec hc _ _ _ h3).panic.elim
    · obtain ⟨t3, w, rfl, hf3, rfl, hb3, hs3⟩ := (ih c ec hc _ _ _ h3).ok
      have hst : (⟨s1.beg, s2.stop - s1.beg⟩ : Span).stop = s2.stop := by
        simp only [Span.stop] at hle ⊢; omega
      obtain ⟨hadd2, hle2⟩ := addIn (t := ⟨s1.beg, s2.stop - s1.beg⟩) (by rw [hst]; exact hs2) hb3
      rw [addK, hadd2] at h4
      cases h4
      refine .inl ⟨w, t2 ++ t3, ⟨s1.beg, s3.stop - s1.beg⟩, by simp, .seq_ok hf2 hf3, by simp [blen_append, Nat.add_assoc], hb1, ?_⟩
      simp only [Span.stop, blen_append] at *; omega
    · cases h4
      exact .inr ⟨.seq_ok hf2 (ih c ec hc _ _ _ h3).none, _, rfl⟩
  · cases h3
    exact .inr ⟨.seq_fail (ih b eb hb _ _ _ h2).none, _, rfl⟩

theorem soundN (hq : SkipReads G R q W) (hi : SkipOnce R W) (hG : RulesAsPegIn W G R) (n : Nat) :
    SoundN W G R q n := by
  induction n with
  | zero => intro p e _ pre x res h; simp [parse] at h
  | succ n ihp =>
    have ih := soundM hq hi ihp
    intro p e hp pre x res h
    have hstep : step G n (matWith (parse G n) (some q)) (parse G n (some q) (pre ++ x)) (pre ++ x) p
        (blen pre) = some res := h
    have one : ∀ {p' : Pat ι β} {e'}, AsPegIn W p' e' → ∀ s o1,
        matWith (parse G n) (some q) (pre ++ x) p' (blen pre) = some (.ok s o1) →
        ∃ y, Ford R (.seq W e') x (some y) ∧ ShapeIn R W pre x (some y) (.ok s o1) := by
      intro p' e' hp' s o1 h1
      obtain ⟨t, y, rfl, hf, rfl, hb, hs⟩ := (ih p' e' hp' _ _ _ h1).ok
      exact ⟨y, hf, t, s, rfl, rfl, hb, hs⟩
    have wrap : ∀ {p' : Pat ι β} {e'}, AsPegIn W p' e' →
        matWith (parse G n) (some q) (pre ++ x) p' (blen pre) = some res → At R W (.seq W e') pre x res := by
      intro p' e' hp' h1
      rcases ih _ _ hp' _ _ _ h1 with ⟨t, y, s, hx, hf, hr, hb, hs⟩ | ⟨er, w, z, hx, hf, hw, hr⟩
      · exact ⟨some y, hf, t, s, hx, hr, hb, hs⟩
      · exact ⟨none, hf, er, w, z, hx, hr, .inr hw⟩
    cases hp with
    | leaf hp ha => exact sound_leaf hp ha h
    | choice_nil er =>
      have hh : choiceLoop (matWith (parse G n) (some q) (pre ++ x)) er (blen pre) [] (blen pre) = some res := hstep
      simp only [choiceLoop, Option.some.injEq] at hh
      subst hh
      exact At.fail (ford_fail x)
    | cell i =>
      rcases hG i with ⟨q, hq, ha⟩ | ⟨hq, ha⟩
      · simp only [step, hq] at hstep
        obtain ⟨r, hf, hs⟩ := ihp q _ ha _ _ _ hstep
        exact ⟨r, .nt hf, hs⟩
      · simp only [step, hq, Option.some.injEq] at hstep
        subst hstep
        exact At.fail (.nt (by rw [ha]; exact ford_fail x))
    | map f hq => exact wrap hq hstep
    | pat hq => exact wrap hq hstep
    | thn ha hb => exact sound_seq2 ih ha hb hstep
    | pre ha hb => exact sound_seq2 ih ha hb hstep
    | suf ha hb => exact sound_seq2 ih ha hb hstep
    | @enclose a b c ea eb ec ha hb hc =>
      simp only [step] at hstep
      rw [caseR_some] at hstep
      rcases hstep with ⟨h1, rfl⟩ | ⟨s, o1, h1, h2⟩ | ⟨e1, o1, h1, h2⟩
      · exact (ih a ea ha _ _ _ h1).panic.elim
      · obtain ⟨t, y, rfl, hf, rfl, hb1, hs1⟩ := (ih a ea ha _ _ _ h1).ok
        rcases sound_three ih hb hc hb1 hs1 h2 with ⟨z, t', s', rfl, hf2, rfl, h3⟩ | ⟨hf2, er, rfl⟩
        · exact ⟨some z, .seq_ok hf hf2, t ++ t', s', by simp, rfl, h3⟩
        · exact At.fail (.seq_ok hf hf2)
      · cases h2; exact At.fail (.seq_fail (ih a ea ha _ _ _ h1).none)
    | @sepOnce a b c ea eb ec ha hb hc =>
      simp only [step] at hstep
      rw [caseR_some] at hstep
      rcases hstep with ⟨h1, rfl⟩ | ⟨s, o1, h1, h2⟩ | ⟨e1, o1, h1, h2⟩
      · exact (ih a ea ha _ _ _ h1).panic.elim
      · obtain ⟨t, y, rfl, hf, rfl, hb1, hs1⟩ := (ih a ea ha _ _ _ h1).ok
        obtain ⟨hadd, hle⟩ := addIn (t := ⟨blen pre, 0⟩) (Nat.le_refl _) hb1
        rw [addK, hadd] at h2
        simp only at h2 hle
        rcases sound_three (s1 := ⟨blen pre, s.stop - blen pre⟩) ih hb hc (Nat.le_refl _)
          (by simp only [Span.stop] at *; omega) h2 with ⟨z, t', s', rfl, hf2, rfl, h3⟩ | ⟨hf2, er, rfl⟩
        · exact ⟨some z, .seq_ok hf hf2, t ++ t', s', by simp, rfl, h3⟩
        · exact At.fail (.seq_ok hf hf2)
      · cases h2; exact At.fail (.seq_fail (ih a ea ha _ _ _ h1).none)
    | @ifThen a c b ea et eb ha hc hb =>
      simp only [step] at hstep
      rw [caseR_some] at hstep
      rcases hstep with ⟨h1, rfl⟩ | ⟨s, o1, h1, h2⟩ | ⟨e1, o1, h1, h2⟩
      · exact (ih a ea ha _ _ _ h1).panic.elim
      · obtain ⟨t, y, rfl, hf, rfl, hb1, hs1⟩ := (ih a ea ha _ _ _ h1).ok
        have h2' := h2
        rw [caseR_some] at h2
        rcases h2 with ⟨h2, rfl⟩ | ⟨s2, o2, h2, h3⟩ | ⟨e1, o2, h2, h3⟩
        · rw [← List.append_assoc, ← blen_append] at h2
          exact (ih c et hc _ _ _ h2).panic.elim
        · have h4 : caseR (matWith (parse G n) (some q) (pre ++ (t ++ y)) c (blen pre + blen t))
              (fun s2 o2 => addK s s2 fun s12 =>
                caseR (matWith (parse G n) (some q) (pre ++ (t ++ y)) b o2)
                (fun s3 o3 => addK s12 s3 fun s => some (.ok s o3))
                (fun e _ => some (.err e (blen pre))))
              (fun e _ => some (.err e (blen pre))) = some res := by
            rw [h2] at h2' ⊢; exact h2'
          rw [← List.append_assoc, ← blen_append] at h2
          obtain ⟨t2, z, rfl, hf2, -⟩ := (ih c et hc _ _ _ h2).ok
          rcases sound_three ih hc hb hb1 hs1 h4 with ⟨w, t', s', hw, hf3, rfl, h5⟩ | ⟨hf3, er, rfl⟩
          · exact ⟨some w, .seq_ok hf (.alt_1 hf3), t ++ t', s', by rw [hw]; simp, rfl, h5⟩
          · exact At.fail (.seq_ok hf (.alt_2 hf3 (.not_fail hf2)))
        · cases h3
          rw [← List.append_assoc, ← blen_append] at h2
          have hf2 := (ih c et hc _ _ _ h2).none
          exact ⟨some y, .seq_ok hf (.alt_2 (.seq_fail hf2) (.not_ok hf2)), t, s, rfl, rfl, hb1, hs1⟩
      · cases h2; exact At.fail (.seq_fail (ih a ea ha _ _ _ h1).none)
    | @or a b ea eb ha hb =>
      simp only [step] at hstep
      rw [caseR_some] at hstep
      rcases hstep with ⟨h1, rfl⟩ | ⟨s, o1, h1, h2⟩ | ⟨e1, o1, h1, h2⟩
      · exact (ih a ea ha _ _ _ h1).panic.elim
      · cases h2
        obtain ⟨y, hf, hs⟩ := one ha _ _ h1
        exact ⟨some y, .alt_1 hf, hs⟩
      · have hfa := (ih a ea ha _ _ _ h1).none
        rw [caseR_some] at h2
        rcases h2 with ⟨h2, rfl⟩ | ⟨s2, o2, h2, h3⟩ | ⟨e1, o2, h2, h3⟩
        · exact (ih b eb hb _ _ _ h2).panic.elim
        · cases h3
          obtain ⟨y, hf, hs⟩ := one hb _ _ h2
          exact ⟨some y, .alt_2 hfa hf, hs⟩
        · cases h3
          exact At.fail (.alt_2 hfa (ih b eb hb _ _ _ h2).none)
    | @opt q e hq =>
      simp only [step] at hstep
      rw [caseR_some] at hstep
      rcases hstep with ⟨h1, rfl⟩ | ⟨s, o1, h1, h2⟩ | ⟨e1, o1, h1, h2⟩
      · exact (ih q e hq _ _ _ h1).panic.elim
      · cases h2
        obtain ⟨y, hf, hs⟩ := one hq _ _ h1
        exact ⟨some y, .alt_1 hf, hs⟩
      · cases h2
        exact ⟨some x, .alt_2 (ih q e hq _ _ _ h1).none .eps, [], _, rfl, rfl, Nat.le_refl _, Nat.le_refl _⟩
    | @isnt q e hq =>
      simp only [step] at hstep
      rw [caseR_some] at hstep
      rcases hstep with ⟨h1, rfl⟩ | ⟨s, o1, h1, h2⟩ | ⟨e1, o1, h1, h2⟩
      · exact (ih q e hq _ _ _ h1).panic.elim
      · obtain ⟨y, hf, -⟩ := one hq _ _ h1
        cases h2
        exact At.fail (.not_fail hf)
      · cases h2
        exact ⟨some x, .not_ok (ih q e hq _ _ _ h1).none, [], _, rfl, rfl, Nat.le_refl _, Nat.le_refl _⟩
    | @is q e hq =>
      simp only [step] at hstep
      rw [caseR_some] at hstep
      rcases hstep with ⟨h1, rfl⟩ | ⟨s, o1, h1, h2⟩ | ⟨e1, o1, h1, h2⟩
      · exact (ih q e hq _ _ _ h1).panic.elim
      · obtain ⟨y, hf, -⟩ := one hq _ _ h1
        cases h2
        exact ⟨some x, .not_ok (.not_fail hf), [], _, rfl, rfl, Nat.le_refl _, Nat.le_refl _⟩
      · cases h2
        exact At.fail (.not_fail (.not_ok (ih q e hq _ _ _ h1).none))
    | @choice_cons er q' e v items es hq hitems =>
      have hh : choiceLoop (matWith (parse G n) (some q) (pre ++ x)) er (blen pre) ((q', v) :: items) (blen pre) = some res := hstep
      have key : ∀ items es, AsPegIn W (.choice er items) es →
          choiceLoop (matWith (parse G n) (some q) (pre ++ x)) er (blen pre) items (blen pre) = some res →
          At R W es pre x res := by
        intro items
        induction items with
        | nil =>
          intro es hes hl
          cases hes with
          | leaf h _ => exact absurd h id
          | choice_nil =>
          cases hl
          exact At.fail (ford_fail x)
        | cons it items ihl =>
          intro es hes hl
          cases hes with
          | leaf h _ => exact absurd h id
          | @choice_cons _ q'' e' v' _ es' hq' hi' =>
            simp only [choiceLoop] at hl
            rw [caseR_some] at hl
            rcases hl with ⟨h1, rfl⟩ | ⟨s, o1, h1, h2⟩ | ⟨e1, o1, h1, h2⟩
            · exact (ih _ _ hq' _ _ _ h1).panic.elim
            · cases h2
              obtain ⟨y, hf, hs⟩ := one hq' _ _ h1
              exact ⟨some y, .alt_1 hf, hs⟩
            · obtain ⟨r, hf, hs⟩ := ihl es' hi' h2
              exact ⟨r, .alt_2 (ih _ _ hq' _ _ _ h1).none hf, hs⟩
      exact key _ _ (.choice_cons er hq hitems) hh
    | rep r m hi hq hc => exact sound_rep ih hq (counts_loop hc) .repeat_ hstep
    | collect m hq => exact sound_rep ih hq (collect_loop m) .collect hstep
    | sep min hq hs => exact sound_sep ih hq hs hstep
    | sepCollect min hq hs => exact sound_sep ih hq hs hstep

end Skip
end Neure
