import Verif.PegSkipComplete
import Verif.PropsPeg
/-!
# C62: a skipping context recognises the parsing expression with the skip written out
-/

namespace Neure

set_option linter.unusedSectionVars false
set_option linter.unusedSimpArgs false

open Demo

variable {ι β : Type} [Item ι] {G : Rules ι β} {R : Nat → Peg ι} {p q : Pat ι β} {e W : Peg ι}

namespace Skip

theorem choice_child {er : Error} {items : List (Pat ι β × Option (Val β))} {e : Peg ι}
    (h : AsPegIn W (.choice er items) e) : ∀ it ∈ items, ∃ e', AsPegIn W it.1 e' := by
  induction items generalizing e with
  | nil => simp
  | cons it items ih =>
    cases h with
    | leaf h _ => exact absurd h id
    | choice_cons _ hp hi =>
      intro it' h'
      rcases List.mem_cons.mp h' with rfl | h'
      · exact ⟨_, hp⟩
      · exact ih hi it' h'

theorem child_as (hG : RulesAsPegIn W G R) {p p' : Pat ι β} {e : Peg ι} (h : AsPegIn W p e)
    (hc : Child G p' p) : ∃ e', AsPegIn W p' e' := by
  cases h with
  | leaf hp ha =>
    cases ha with
    | empty | fail | anchorEnd | consumeAll | lit | once | many0 | many1 | optU | between | times | thenU =>
      exact absurd hc id
    | _ => exact absurd hp id
  | cell i =>
    rcases hG i with ⟨q, hq, ha⟩ | ⟨hq, _⟩
    · have hc : G i = some p' := hc
      rw [hq] at hc; cases hc; exact ⟨_, ha⟩
    · have hc : G i = some p' := hc
      rw [hq] at hc; cases hc
  | map _ h => cases hc; exact ⟨_, h⟩
  | pat h => cases hc; exact ⟨_, h⟩
  | thn ha hb => rcases hc with rfl | rfl <;> exact ⟨_, by assumption⟩
  | pre ha hb => rcases hc with rfl | rfl <;> exact ⟨_, by assumption⟩
  | suf ha hb => rcases hc with rfl | rfl <;> exact ⟨_, by assumption⟩
  | enclose ha hb hd => rcases hc with rfl | rfl | rfl <;> exact ⟨_, by assumption⟩
  | sepOnce ha hb hd => rcases hc with rfl | rfl | rfl <;> exact ⟨_, by assumption⟩
  | ifThen ha hb hd => rcases hc with rfl | rfl | rfl <;> exact ⟨_, by assumption⟩
  | or ha hb => rcases hc with rfl | rfl <;> exact ⟨_, by assumption⟩
  | opt h => cases hc; exact ⟨_, h⟩
  | isnt h => cases hc; exact ⟨_, h⟩
  | is h => cases hc; exact ⟨_, h⟩
  | choice_nil er => obtain ⟨_, h, _⟩ := hc; cases h
  | choice_cons er hp hi =>
    obtain ⟨it, hm, rfl⟩ := hc
    exact choice_child (.choice_cons er hp hi) it hm
  | rep _ _ _ h _ => cases hc; exact ⟨_, h⟩
  | collect _ h => cases hc; exact ⟨_, h⟩
  | sep _ ha hb => rcases hc with rfl | rfl <;> exact ⟨_, by assumption⟩
  | sepCollect _ ha hb => rcases hc with rfl | rfl <;> exact ⟨_, by assumption⟩

theorem tidy_as {p : Pat ι β} {e : Peg ι} (h : AsPegIn W p e) : Tidy p := by
  cases h with
  | leaf hp ha => cases ha <;> first | trivial | exact absurd hp id
  | sep => exact rfl
  | sepCollect => exact rfl
  | _ => trivial

theorem all_tidy (hG : RulesAsPegIn W G R) {p : Pat ι β} {e : Peg ι} (h : AsPegIn W p e) :
    All G Tidy p := by
  intro p' hd
  have : ∃ e', AsPegIn W p' e' := by
    induction hd with
    | refl => exact ⟨e, h⟩
    | step _ hc ih => obtain ⟨e', h'⟩ := ih; exact child_as hG h' hc
  obtain ⟨e', h'⟩ := this
  exact tidy_as h'

end Skip

/-- **C62.** In a context that skips `q` (reading as `W`, skipping all there is
to skip at once), a pattern that reads as `e` succeeds exactly when "`W`, then
`e`" does, at exactly that end position; it fails exactly when "`W`, then `e`"
fails, and then only the skipped text is gone; it never panics. -/
theorem C62_skip_peg (hq : SkipReads G R q W) (hi : SkipOnce R W) (hG : RulesAsPegIn W G R)
    (hp : AsPegIn W p e) (pre x : List ι) :
    (∀ o', (∃ s, Runs G (some q) (pre ++ x) p (blen pre) (.ok s o')) ↔
      ∃ t y, x = t ++ y ∧ Ford R (.seq W e) x (some y) ∧ o' = blen pre + blen t) ∧
    (∀ o', (∃ er, Runs G (some q) (pre ++ x) p (blen pre) (.err er o')) ↔
      Ford R (.seq W e) x none ∧ ∃ w z, x = w ++ z ∧ Ford R (.opt W) x (some z) ∧
        o' = blen pre + blen w) ∧
    ¬ Runs G (some q) (pre ++ x) p (blen pre) .panic := by
  have sound : ∀ res, Runs G (some q) (pre ++ x) p (blen pre) res → Skip.MatAt R W e pre x res := by
    rintro res ⟨n, hn⟩
    exact Skip.soundM hq hi (Skip.soundN hq hi hG n) p e hp pre x res hn
  have stops : ∀ r, Ford R (.seq W e) x r → ∃ res, Runs G (some q) (pre ++ x) p (blen pre) res := by
    intro r hf
    obtain ⟨n, hn⟩ := ev_of_ford hf
    have im := Skip.ihm_of hq hi hG (N := n) (fun M _ => Skip.complete_ev hq hi hG M)
    obtain ⟨res, h⟩ := Skip.mat_stops im hp (Nat.lt_succ_self n) ⟨pre, rfl, rfl⟩ hn
    exact ⟨res, runs_iff.mpr h⟩
  refine ⟨fun o' => ⟨?_, ?_⟩, fun o' => ⟨?_, ?_⟩, fun h => (sound _ h).panic⟩
  · rintro ⟨s, h⟩
    obtain ⟨t, y, hx, hf, ho, _⟩ := (sound _ h).ok
    exact ⟨t, y, hx, hf, ho⟩
  · rintro ⟨t, y, rfl, hf, rfl⟩
    obtain ⟨res, h⟩ := stops _ hf
    rcases sound _ h with ⟨t', y', s, hx, hf', rfl, _⟩ | ⟨er, w, z, hx, hf', _, rfl⟩
    · cases hf.unique hf'
      rw [List.append_cancel_right hx]
      rw [List.append_cancel_right hx] at h
      exact ⟨s, h⟩
    · cases hf.unique hf'
  · rintro ⟨er, h⟩
    obtain ⟨w, z, hx, hf, hw, ho⟩ := (sound _ h).err
    exact ⟨hf, w, z, hx, hw, ho⟩
  · rintro ⟨hf, w, z, rfl, hw, rfl⟩
    obtain ⟨res, h⟩ := stops _ hf
    rcases sound _ h with ⟨t', y', s, hx, hf', rfl, _⟩ | ⟨er, w', z', hx, hf', hw', rfl⟩
    · cases hf.unique hf'
    · cases hw.unique hw'
      rw [List.append_cancel_right hx]
      rw [List.append_cancel_right hx] at h
      exact ⟨er, h⟩

/-- **C62 (span).** The span begins right after what was skipped first and ends
no later than the end position. -/
theorem C62_skip_span (hq : SkipReads G R q W) (hi : SkipOnce R W) (hG : RulesAsPegIn W G R)
    (hp : AsPegIn W p e) (pre w z : List ι) (hw : Ford R W (w ++ z) (some z)) (s : Span) (o' : Nat)
    (h : Runs G (some q) (pre ++ (w ++ z)) p (blen pre) (.ok s o')) :
    s.beg = blen pre + blen w ∧ s.beg + s.len ≤ o' := by
  refine ⟨?_, ?_⟩
  · have here : ∀ pre y, Ford R W y (some y) →
        ∃ s', Runs G none (pre ++ y) q (blen pre) (.ok s' (blen pre)) := by
      intro pre y hy
      obtain ⟨res, hr⟩ := hq.halt pre y _ hy
      rcases hq.run pre y res hr with ⟨t, y', s', hx, hf, rfl⟩ | ⟨hf, _⟩
      · cases hy.unique hf
        have : t = [] := by simpa using congrArg List.length hx
        subst this
        exact ⟨s', by simpa using hr⟩
      · cases hy.unique hf
    rcases (C31_policy_runs_first q _ _ _).mp h with ⟨sq, o1, hsq, n, hn⟩ | ⟨_, _, _, h⟩ | ⟨_, h⟩
    · rcases hq.run pre _ _ hsq with ⟨t, y, s', hx, hf, hr⟩ | ⟨_, _, hr⟩
      · cases hr
        cases hw.unique hf
        have := List.append_cancel_right hx
        subst this
        have hb := here (pre ++ w) z (hi _ _ hw)
        rw [List.append_assoc, blen_append] at hb
        exact begins_inv G n q _ p _ hb (Skip.all_tidy hG hp) _ hn
      · cases hr
    · cases h
    · cases h
  · obtain ⟨n, hn⟩ := h
    obtain ⟨t, y, _, _, ho, _, hs⟩ := (Skip.soundM hq hi (Skip.soundN hq hi hG n) p e hp pre _ _ hn).ok
    rw [ho]; exact hs

/-- **C62 (termination).** A run in a skipping context comes back exactly when
the parsing expression with the skip written out has a result. -/
theorem C62_skip_halts (hq : SkipReads G R q W) (hi : SkipOnce R W) (hG : RulesAsPegIn W G R)
    (hp : AsPegIn W p e) (pre x : List ι) :
    (∃ res, Runs G (some q) (pre ++ x) p (blen pre) res) ↔ ∃ r, Ford R (.seq W e) x r := by
  obtain ⟨hok, herr, hpanic⟩ := C62_skip_peg hq hi hG hp pre x
  constructor
  · rintro ⟨res, h⟩
    cases res with
    | panic => exact absurd h hpanic
    | ok s o' => obtain ⟨t, y, _, hf, _⟩ := (hok o').mp ⟨s, h⟩; exact ⟨_, hf⟩
    | err er o' => obtain ⟨hf, _⟩ := (herr o').mp ⟨er, h⟩; exact ⟨_, hf⟩
  · rintro ⟨r, hf⟩
    obtain ⟨n, hn⟩ := ev_of_ford hf
    have im := Skip.ihm_of hq hi hG (N := n) (fun M _ => Skip.complete_ev hq hi hG M)
    obtain ⟨res, h⟩ := Skip.mat_stops im hp (Nat.lt_succ_self n) ⟨pre, rfl, rfl⟩ hn
    exact ⟨res, runs_iff.mpr h⟩

/-- No nonterminal occurs. -/
def Peg.NoNt {ι : Type} : Peg ι → Prop
  | .eps | .cls _ => True
  | .nt _ => False
  | .seq a b | .alt a b => a.NoNt ∧ b.NoNt
  | .star a | .not a => a.NoNt

namespace Skip

theorem ford_noNt {R R' : Nat → Peg ι} {e : Peg ι} {x r} (h : Ford R e x r) (hn : e.NoNt) :
    Ford R' e x r := by
  induction h with
  | eps => exact .eps
  | cls_ok h => exact .cls_ok h
  | cls_no h => exact .cls_no h
  | cls_end => exact .cls_end
  | nt => exact absurd hn id
  | seq_ok _ _ i1 i2 => exact .seq_ok (i1 hn.1) (i2 hn.2)
  | seq_fail _ i1 => exact .seq_fail (i1 hn.1)
  | alt_1 _ i1 => exact .alt_1 (i1 hn.1)
  | alt_2 _ _ i1 i2 => exact .alt_2 (i1 hn.1) (i2 hn.2)
  | star_end _ i1 => exact .star_end (i1 hn)
  | star_more _ _ i1 i2 => exact .star_more (i1 hn) (i2 hn)
  | not_ok _ i1 => exact .not_ok (i1 hn)
  | not_fail _ i1 => exact .not_fail (i1 hn)

theorem plain_as {p : Pat ι β} {e : Peg ι} (h : AsPegIn W p e) : ∃ e', AsPeg p e' := by
  induction h with
  | leaf _ h => exact ⟨_, h⟩
  | cell i => exact ⟨_, .cell i⟩
  | map f _ ih => obtain ⟨_, h⟩ := ih; exact ⟨_, .map f h⟩
  | pat _ ih => obtain ⟨_, h⟩ := ih; exact ⟨_, .pat h⟩
  | thn _ _ i1 i2 => obtain ⟨_, h1⟩ := i1; obtain ⟨_, h2⟩ := i2; exact ⟨_, .thn h1 h2⟩
  | pre _ _ i1 i2 => obtain ⟨_, h1⟩ := i1; obtain ⟨_, h2⟩ := i2; exact ⟨_, .pre h1 h2⟩
  | suf _ _ i1 i2 => obtain ⟨_, h1⟩ := i1; obtain ⟨_, h2⟩ := i2; exact ⟨_, .suf h1 h2⟩
  | enclose _ _ _ i1 i2 i3 =>
    obtain ⟨_, h1⟩ := i1; obtain ⟨_, h2⟩ := i2; obtain ⟨_, h3⟩ := i3; exact ⟨_, .enclose h1 h2 h3⟩
  | sepOnce _ _ _ i1 i2 i3 =>
    obtain ⟨_, h1⟩ := i1; obtain ⟨_, h2⟩ := i2; obtain ⟨_, h3⟩ := i3; exact ⟨_, .sepOnce h1 h2 h3⟩
  | ifThen _ _ _ i1 i2 i3 =>
    obtain ⟨_, h1⟩ := i1; obtain ⟨_, h2⟩ := i2; obtain ⟨_, h3⟩ := i3; exact ⟨_, .ifThen h1 h2 h3⟩
  | or _ _ i1 i2 => obtain ⟨_, h1⟩ := i1; obtain ⟨_, h2⟩ := i2; exact ⟨_, .or h1 h2⟩
  | opt _ ih => obtain ⟨_, h⟩ := ih; exact ⟨_, .opt h⟩
  | isnt _ ih => obtain ⟨_, h⟩ := ih; exact ⟨_, .isnt h⟩
  | is _ ih => obtain ⟨_, h⟩ := ih; exact ⟨_, .is h⟩
  | choice_nil er => exact ⟨_, .choice_nil er⟩
  | choice_cons er _ _ i1 i2 =>
    obtain ⟨_, h1⟩ := i1; obtain ⟨_, h2⟩ := i2; exact ⟨_, .choice_cons er h1 h2⟩
  | rep r m n _ hc ih => obtain ⟨_, h⟩ := ih; exact ⟨_, .rep r m n h hc⟩
  | collect m _ ih => obtain ⟨_, h⟩ := ih; exact ⟨_, .collect m h⟩
  | sep m _ _ i1 i2 => obtain ⟨_, h1⟩ := i1; obtain ⟨_, h2⟩ := i2; exact ⟨_, .sep m h1 h2⟩
  | sepCollect m _ _ i1 i2 => obtain ⟨_, h1⟩ := i1; obtain ⟨_, h2⟩ := i2; exact ⟨_, .sepCollect m h1 h2⟩

theorem plain_rules (hG : RulesAsPegIn W G R) : ∃ R', RulesAsPeg G R' := by
  have : ∀ i, ∃ e, (∃ q, G i = some q ∧ AsPeg q e) ∨ (G i = none ∧ e = .fail) := by
    intro i
    rcases hG i with ⟨q, hq, ha⟩ | ⟨hq, _⟩
    · obtain ⟨e, he⟩ := plain_as ha; exact ⟨e, .inl ⟨q, hq, he⟩⟩
    · exact ⟨_, .inr ⟨hq, rfl⟩⟩
  exact ⟨fun i => (this i).choose, fun i => (this i).choose_spec⟩

end Skip

/-- **C62 (what may be skipped).** Whatever C58 covers, without recursion, may
serve as the skipped pattern. -/
theorem C62_reads_of_peg {W' : Peg ι} (hG : RulesAsPegIn W' G R) (hq : AsPeg q W) (hn : W.NoNt) :
    SkipReads G R q W := by
  obtain ⟨R', hG'⟩ := Skip.plain_rules hG
  refine ⟨fun pre x res h => ?_, fun pre x r hf =>
    (C58_peg_halts hG' hq pre x).mpr ⟨r, Skip.ford_noNt hf hn⟩⟩
  obtain ⟨hok, herr, hpanic⟩ := C58_peg hG' hq pre x
  cases res with
  | panic => exact absurd h hpanic
  | ok s o' =>
    obtain ⟨t, y, hx, hf, _, ho⟩ := (hok s o').mp h
    exact .inl ⟨t, y, s, hx, Skip.ford_noNt hf hn, by rw [ho]⟩
  | err er o' =>
    obtain ⟨hf, ho⟩ := (herr o').mp ⟨er, h⟩
    exact .inr ⟨Skip.ford_noNt hf hn, er, by rw [ho]⟩

/-- **C62 (repetition skips at once).** Skipping `e` as often as possible leaves
nothing to skip. -/
theorem C62_star_once (R : Nat → Peg ι) (e : Peg ι) : SkipOnce R (.star e) := by
  intro x y h
  generalize hE : Peg.star e = E at h
  generalize hr : some y = r at h
  induction h with
  | star_end h => cases hr; exact .star_end h
  | star_more _ _ _ ih => exact ih hE hr
  | _ => cases hE

/-- **C62 (white space).** Skipping the characters of a class (`skip_whitespace`,
`skip_ascii_whitespace`, `skip_before(unit.many0())`) meets the hypotheses with
any rules. -/
theorem C62_skip_class (G : Rules ι β) (R : Nat → Peg ι) (u : Neu ι) :
    SkipReads G R (.many0 u .empty) (.star (.cls u.isMatch)) ∧ SkipOnce R (.star (.cls u.isMatch)) := by
  refine ⟨⟨fun pre x res h => ?_, fun pre x r _ => ?_⟩, ?_⟩
  · rw [runs_plain] at h
    obtain ⟨n, hn⟩ := h
    obtain ⟨t, y, hx, hf, hr⟩ : ∃ t y, x = t ++ y ∧ Ford R (.star (.cls u.isMatch)) x (some y) ∧
        res = .ok ⟨blen pre, blen t⟩ (blen pre + blen t) := by
      obtain ⟨r, hf, hs⟩ := (pegLeaf_many0 (G := G) (R := R) u).sound hn
      cases r with
      | none => exact absurd rfl (ford_star_ok hf)
      | some y => obtain ⟨t, hx, hr⟩ := hs; exact ⟨t, y, hx, hf, hr⟩
    exact .inl ⟨t, y, _, hx, hf, hr⟩
  · obtain ⟨_, _, res, h, _⟩ := pegLeaf_many0 (G := G) (R := R) u pre x
    exact ⟨res, runs_plain.mpr h⟩
  · exact C62_star_once R _

/-- **C62 (by hand).** A skipping context can be replaced by a plain one: the
parsing expression with the skip written out, written down as a pattern
(C58), ends at the same positions and fails on the same input. -/
theorem C62_by_hand (hq : SkipReads G R q W) (hi : SkipOnce R W) (hG : RulesAsPegIn W G R)
    (hp : AsPegIn W p e) (pre x : List ι) (o' : Nat) :
    ((∃ s, Runs G (some q) (pre ++ x) p (blen pre) (.ok s o')) ↔
      ∃ s, Runs (β := β) (fun i => some (pegPat (R i))) none (pre ++ x) (pegPat (.seq W e)) (blen pre)
        (.ok s o')) ∧
    ((∃ er o1, Runs G (some q) (pre ++ x) p (blen pre) (.err er o1)) ↔
      ∃ er o1, Runs (β := β) (fun i => some (pegPat (R i))) none (pre ++ x) (pegPat (.seq W e)) (blen pre)
        (.err er o1)) := by
  obtain ⟨hok, herr, -⟩ := C62_skip_peg hq hi hG hp pre x
  obtain ⟨h1, h2⟩ := C58_every_peg (β := β) R (.seq W e)
  obtain ⟨hok', herr', -⟩ := C58_peg h1 h2 pre x
  constructor
  · rw [hok]
    constructor
    · rintro ⟨t, y, hx, hf, ho⟩; exact ⟨_, (hok' _ _).mpr ⟨t, y, hx, hf, rfl, ho⟩⟩
    · rintro ⟨s, h⟩
      obtain ⟨t, y, hx, hf, _, ho⟩ := (hok' _ _).mp h
      exact ⟨t, y, hx, hf, ho⟩
  · constructor
    · rintro ⟨er, o1, h⟩
      obtain ⟨er', h'⟩ := (herr' (blen pre)).mpr ⟨((herr o1).mp ⟨er, h⟩).1, rfl⟩
      exact ⟨er', _, h'⟩
    · rintro ⟨er, o1, h⟩
      have hf := ((herr' o1).mp ⟨er, h⟩).1
      have : ∃ w z, x = w ++ z ∧ Ford R (.opt W) x (some z) := by
        obtain ⟨res, hr⟩ := (C62_skip_halts hq hi hG hp pre x).mpr ⟨_, hf⟩
        cases res with
        | panic => exact absurd hr (C62_skip_peg hq hi hG hp pre x).2.2
        | ok s o2 =>
          obtain ⟨_, _, _, hf', _⟩ := (hok o2).mp ⟨s, hr⟩
          cases hf.unique hf'
        | err er2 o2 =>
          obtain ⟨_, w, z, hx, hw, _⟩ := (herr o2).mp ⟨er2, hr⟩
          exact ⟨w, z, hx, hw⟩
      obtain ⟨w, z, hx, hw⟩ := this
      obtain ⟨er', h'⟩ := (herr _).mpr ⟨hf, w, z, hx, hw, rfl⟩
      exact ⟨er', _, h'⟩

/-! ### A case -/

namespace Skip

/-- `digit.sep(',')` between brackets. -/
def numbers : Pat Char Nat :=
  .enclose (.lit ['[']) (.sep (.many1 (.pred Char.isDigit) .empty) (.lit [',']) true 1) (.lit [']'])

/-- Spaces. -/
def blanks : Peg Char := .star (.cls (Neu.isMatch (.item ' ')))

def numbersPeg : Peg Char :=
  .seq (.seq blanks (.lit ['[']))
    (.seq (.seq blanks (.seq (.list (.seq blanks (.plus (.cls Char.isDigit))) (.seq blanks (.lit [','])) 1)
        (.opt blanks)))
      (.seq blanks (.lit [']'])))

end Skip

/-- Non-vacuity: the hypotheses hold of a list of numbers, with spaces skipped
everywhere but inside the numbers. -/
example : AsPegIn Skip.blanks Skip.numbers Skip.numbersPeg ∧ RulesAsPegIn (β := Nat) Skip.blanks G0 (fun _ => .fail) ∧
    SkipReads G0 (fun _ => .fail) spaces Skip.blanks ∧ SkipOnce (fun _ => .fail) Skip.blanks ∧
    Runs G0 (some spaces) " [ 1 , 22,3 ] ".toList Skip.numbers 0 (.ok ⟨1, 12⟩ 13) :=
  ⟨.enclose (.leaf trivial (.lit _)) (.sep 1 (.leaf trivial (.many1 _)) (.leaf trivial (.lit _)))
      (.leaf trivial (.lit _)),
    fun _ => .inr ⟨rfl, rfl⟩, (C62_skip_class G0 _ (.item ' ')).1, (C62_skip_class (β := Nat) G0 _ (.item ' ')).2,
    12, by decide +kernel⟩

/-- Comments may be skipped too: white space or `#` up to the end of the line. -/
example : (∀ R, SkipOnce (ι := Char) R (.rep (.alt (.plus (.cls (Neu.isMatch (.item ' '))))
      (.seq (.lit ['#']) (.star (.cls (Neu.isMatch (.pred (· != '\n'))))))) 0 none)) ∧
    SkipReads (β := Nat) G0 (fun _ => .fail)
    (.rep (.or (.many1 (.item ' ') .empty) (.thn (.lit ['#']) (.many0 (.pred (· != '\n')) .empty)))
      ⟨.incl 0, .unb⟩)
    (.rep (.alt (.plus (.cls (Neu.isMatch (.item ' '))))
      (.seq (.lit ['#']) (.star (.cls (Neu.isMatch (.pred (· != '\n'))))))) 0 none) :=
  ⟨fun R => C62_star_once R _, C62_reads_of_peg (W' := .eps) (fun _ => .inr ⟨rfl, rfl⟩)
    (.rep _ 0 none (.or (.many1 _) (.thn (.lit _) (.many0 _)))
      ⟨by simp, by simp [Bound.allowsFrom, Bound.allowsUpTo]⟩)
    (by simp [Peg.rep, Peg.times, Peg.NoNt, Peg.plus, Peg.lit])⟩

end Neure
