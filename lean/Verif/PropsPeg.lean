import Verif.PegComplete
import Verif.Demo
/-!
# C58: patterns are parsing expressions
-/

namespace Neure

set_option linter.unusedSectionVars false
set_option linter.unusedSimpArgs false

open Demo

variable {ι β : Type} [Item ι] {G : Rules ι β} {R : Nat → Peg ι} {p : Pat ι β} {e : Peg ι}

/-- **C58 (PEG semantics).** On a plain context, at any position (`pre` before,
`x` to come), a pattern that reads as the parsing expression `e` succeeds with
the span of `t` exactly when `e` succeeds on `x` consuming `t`, fails (offset
unmoved) exactly when `e` fails, and never panics. -/
theorem C58_peg (hG : RulesAsPeg G R) (hp : AsPeg p e) (pre x : List ι) :
    (∀ s o', Runs G none (pre ++ x) p (blen pre) (.ok s o') ↔
      ∃ t y, x = t ++ y ∧ Ford R e x (some y) ∧ s = ⟨blen pre, blen t⟩ ∧ o' = blen pre + blen t) ∧
    (∀ o', (∃ er, Runs G none (pre ++ x) p (blen pre) (.err er o')) ↔
      Ford R e x none ∧ o' = blen pre) ∧
    ¬ Runs G none (pre ++ x) p (blen pre) .panic := by
  simp only [runs_plain]
  refine ⟨fun s o' => ⟨fun h => ?_, ?_⟩, fun o' => ⟨?_, ?_⟩, fun h => ?_⟩
  · exact (sound_of hG hp (parses_iff.mp h)).ok
  · rintro ⟨t, y, rfl, hf, rfl, rfl⟩
    obtain ⟨n, hn⟩ := ev_of_ford hf
    obtain ⟨res, hr, t', ht, rfl⟩ := complete_ev hG n p e hp pre _ _ hn
    rw [List.append_cancel_right ht]
    rw [List.append_cancel_right ht] at hr
    exact hr
  · rintro ⟨er, h⟩; exact (sound_of hG hp (parses_iff.mp h)).err
  · rintro ⟨hf, rfl⟩
    obtain ⟨n, hn⟩ := ev_of_ford hf
    obtain ⟨res, hr, er, rfl⟩ := complete_ev hG n p e hp pre _ _ hn
    exact ⟨er, hr⟩
  · exact (sound_of hG hp (parses_iff.mp h)).panic

/-- **C58 (termination).** The run comes back exactly when the parsing
expression has a result: left recursion and repetition of the empty match are
the only ways to run forever, as for any PEG. -/
theorem C58_peg_halts (hG : RulesAsPeg G R) (hp : AsPeg p e) (pre x : List ι) :
    (∃ res, Runs G none (pre ++ x) p (blen pre) res) ↔ ∃ r, Ford R e x r := by
  simp only [runs_plain]
  constructor
  · rintro ⟨res, h⟩
    obtain ⟨r, hf, _⟩ := sound_of hG hp (parses_iff.mp h)
    exact ⟨r, hf⟩
  · rintro ⟨r, hf⟩
    obtain ⟨n, hn⟩ := ev_of_ford hf
    obtain ⟨res, hr, _⟩ := complete_ev hG n p e hp pre _ _ hn
    exact ⟨res, hr⟩

/-- How to write a parsing expression with the library: `once(unit)`, `then`,
`or`, `repeat(0..)`, `not`, and recursive handles for the nonterminals. -/
def pegPat : Peg ι → Pat ι β
  | .eps => .empty
  | .cls f => .once (.pred f) .empty
  | .nt i => .cell i
  | .seq a b => .thn (pegPat a) (pegPat b)
  | .alt a b => .or (pegPat a) (pegPat b)
  | .star a => .rep (pegPat a) ⟨.incl 0, .unb⟩
  | .not a => .assert (pegPat a) false

/-- **C58 (every PEG).** Any parsing expression grammar can be written with the
combinators, and the result recognises exactly what the grammar does. -/
theorem C58_every_peg (R : Nat → Peg ι) (e : Peg ι) :
    RulesAsPeg (β := β) (fun i => some (pegPat (R i))) R ∧ AsPeg (β := β) (pegPat e) e := by
  have h : ∀ e : Peg ι, AsPeg (β := β) (pegPat e) e := by
    intro e
    induction e with
    | eps => exact .empty
    | cls f => exact .once (.pred f)
    | nt i => exact .cell i
    | seq a b iha ihb => exact .thn iha ihb
    | alt a b iha ihb => exact .or iha ihb
    | star a ih =>
      exact .rep (e := a) ⟨.incl 0, .unb⟩ 0 none ih
        ⟨by simp, by simp [Bound.allowsFrom, Bound.allowsUpTo]⟩
    | not a ih => exact .isnt ih
  exact ⟨fun i => .inl ⟨_, rfl, h _⟩, h e⟩

/-! ### A language no context-free grammar describes -/

namespace Abc

/-- `c` as a unit. -/
def ch (c : Char) : Pat Char Nat := .once (.item c) .empty

/-- `A ← 'a' A? 'b'` (handle 0) and `B ← 'b' B? 'c'` (handle 1). -/
def rules : Rules Char Nat
  | 0 => some (.thn (.thn (ch 'a') (.opt (.cell 0))) (ch 'b'))
  | 1 => some (.thn (.thn (ch 'b') (.opt (.cell 1))) (ch 'c'))
  | _ => none

/-- `S ← &(A 'c') 'a'+ B !.` -/
def S : Pat Char Nat :=
  .thn (.thn (.thn (.assert (.thn (.cell 0) (ch 'c')) true) (.many1 (.item 'a') .empty)) (.cell 1))
    .anchorEnd

/-- The class of one character. -/
def is (c : Char) : Peg Char := .cls (Neu.isMatch (.item c))

def grammar : Nat → Peg Char
  | 0 => .seq (.seq (is 'a') (.opt (.nt 0))) (is 'b')
  | 1 => .seq (.seq (is 'b') (.opt (.nt 1))) (is 'c')
  | _ => .fail

def Speg : Peg Char :=
  .seq (.seq (.seq (.and (.seq (.nt 0) (is 'c'))) (.plus (is 'a'))) (.nt 1)) (.not .any)

theorem rules_as : RulesAsPeg rules grammar := by
  intro i
  match i with
  | 0 => exact .inl ⟨_, rfl, .thn (.thn (.once _) (.opt (.cell 0))) (.once _)⟩
  | 1 => exact .inl ⟨_, rfl, .thn (.thn (.once _) (.opt (.cell 1))) (.once _)⟩
  | n + 2 => exact .inr ⟨rfl, rfl⟩

theorem S_as : AsPeg S Speg :=
  .thn (.thn (.thn (.is (.thn (.cell 0) (.once _))) (.many1 _)) (.cell 1)) .anchorEnd

theorem is_ok {c : Char} {x y} : Ford grammar (is c) x (some y) ↔ x = c :: y := by
  constructor
  · intro h
    cases h with
    | cls_ok h => simp only [Neu.isMatch, decide_eq_true_eq] at h; rw [h]
  · rintro rfl; exact .cls_ok (by simp [Neu.isMatch])

theorem is_no {c : Char} {x} : Ford grammar (is c) x none ↔ ∀ y, x ≠ c :: y := by
  constructor
  · intro h y he
    have := h.unique (is_ok.mpr he)
    cases this
  · intro h
    cases x with
    | nil => exact .cls_end
    | cons a x =>
      refine .cls_no ?_
      simp only [Neu.isMatch, decide_eq_false_iff_not]
      rintro rfl; exact h x rfl

theorem nest_ok {i : Nat} {a b : Char} (hi : grammar i = .seq (.seq (is a) (.opt (.nt i))) (is b))
    {n : Nat} : ∀ {x y : List Char}, pegEv grammar n (.nt i) x = some (some y) →
    ∃ k, x = List.replicate (k + 1) a ++ List.replicate (k + 1) b ++ y := by
  induction n using Nat.strongRecOn with
  | _ n ih =>
    intro x y h
    cases n with
    | zero => simp [pegEv] at h
    | succ n =>
      have h : pegEv grammar n (grammar i) x = some (some y) := h
      rw [hi] at h
      obtain ⟨M, rfl, ⟨_, h2⟩ | ⟨w, h1, h2⟩⟩ := ev_seq h
      · cases h2
      obtain ⟨M', rfl, ⟨_, h4⟩ | ⟨v, h3, h4⟩⟩ := ev_seq h1
      · cases h4
      have hv := is_ok.mp (ford_of_ev h3)
      have hw := is_ok.mp (ford_of_ev h2)
      obtain ⟨M'', rfl, ⟨u, h5, h6⟩ | ⟨_, h6⟩⟩ := ev_alt h4
      · cases h6
        obtain ⟨k, hk⟩ := ih M'' (by omega) h5
        refine ⟨k + 1, ?_⟩
        rw [hv, hk, hw, List.replicate_succ (n := k + 1), List.replicate_succ' (n := k + 1)]
        simp
      · have := (ford_of_ev h6).unique .eps
        cases this
        refine ⟨0, ?_⟩
        rw [hv, hw]; simp

theorem nest_run {i : Nat} {a b : Char} (hab : a ≠ b)
    (hi : grammar i = .seq (.seq (is a) (.opt (.nt i))) (is b)) (k : Nat) (y : List Char) :
    Ford grammar (.nt i) (List.replicate (k + 1) a ++ List.replicate (k + 1) b ++ y) (some y) := by
  induction k generalizing y with
  | zero =>
    refine .nt ?_
    rw [hi]
    have hno : Ford grammar (.nt i) (b :: y) none := by
      refine .nt ?_
      rw [hi]
      exact .seq_fail (.seq_fail (is_no.mpr (by intro z hz; cases hz; exact hab rfl)))
    exact .seq_ok (y := b :: y) (.seq_ok (y := b :: y) (is_ok.mpr rfl) (.alt_2 hno .eps)) (is_ok.mpr rfl)
  | succ k ih =>
    refine .nt ?_
    rw [hi]
    have he : List.replicate (k + 1 + 1) a ++ List.replicate (k + 1 + 1) b ++ y =
        a :: (List.replicate (k + 1) a ++ List.replicate (k + 1) b ++ (b :: y)) := by
      rw [List.replicate_succ (n := k + 1) (a := a), List.replicate_succ' (n := k + 1) (a := b)]
      simp
    exact .seq_ok (y := b :: y) (.seq_ok (is_ok.mpr he) (.alt_1 (ih (b :: y)))) (is_ok.mpr rfl)

theorem plus_a (k : Nat) (z : List Char) :
    Ford grammar (.plus (is 'a')) (List.replicate (k + 1) 'a' ++ List.replicate (k + 1) 'b' ++ z)
      (some (List.replicate (k + 1) 'b' ++ z)) := by
  rw [List.replicate_succ (a := 'a'), List.append_assoc, List.cons_append]
  refine .seq_ok (is_ok.mpr rfl) ?_
  have := ford_star_cls (R := grammar) (Neu.isMatch (.item 'a'))
    (List.replicate k 'a' ++ (List.replicate (k + 1) 'b' ++ z))
  rw [List.dropWhile_append_of_pos] at this
  · exact this
  · intro c hc; have := List.eq_of_mem_replicate hc; subst this; rfl

theorem bs_agree {m n j : Nat} {y : List Char}
    (h : List.replicate m 'b' ++ 'c' :: y = List.replicate n 'b' ++ List.replicate (j + 1) 'c') :
    m = n ∧ 'c' :: y = List.replicate (j + 1) 'c' := by
  induction m generalizing n with
  | zero =>
    cases n with
    | zero => exact ⟨rfl, by simpa using h⟩
    | succ n => simp [List.replicate_succ] at h
  | succ m ih =>
    cases n with
    | zero => simp [List.replicate_succ] at h
    | succ n =>
      simp only [List.replicate_succ (a := 'b'), List.cons_append, List.cons.injEq, true_and] at h
      obtain ⟨rfl, h'⟩ := ih h
      exact ⟨rfl, h'⟩

end Abc

open Abc in
/-- **C58 (aⁿbⁿcⁿ).** The pattern `&(A 'c') 'a'+ B !.` with the recursive
handles `A`, `B` accepts exactly the strings `aⁿbⁿcⁿ`, `n ≥ 1`. -/
theorem C58_abc (x : List Char) :
    Matches Abc.rules none x Abc.S 0 ↔
      ∃ k, x = List.replicate (k + 1) 'a' ++ List.replicate (k + 1) 'b' ++ List.replicate (k + 1) 'c' := by
  have hpeg := (C58_peg rules_as S_as [] x).1
  have h1 : Matches Abc.rules none x Abc.S 0 ↔ ∃ y, Ford grammar Speg x (some y) := by
    constructor
    · rintro ⟨s, o', h⟩
      obtain ⟨t, y, _, h, _⟩ := (hpeg s o').mp h
      exact ⟨y, h⟩
    · rintro ⟨y, h⟩
      obtain ⟨n, hn⟩ := ev_of_ford h
      obtain ⟨res, hr, t, ht, rfl⟩ := complete_ev rules_as n _ _ S_as [] x _ hn
      exact ⟨_, _, runs_plain.mpr hr⟩
  rw [h1]
  have hA : grammar 0 = .seq (.seq (is 'a') (.opt (.nt 0))) (is 'b') := rfl
  have hB : grammar 1 = .seq (.seq (is 'b') (.opt (.nt 1))) (is 'c') := rfl
  constructor
  · rintro ⟨y, h⟩
    cases h with
    | seq_ok h hend =>
    cases h with
    | seq_ok h hb =>
    cases h with
    | seq_ok hand has =>
    cases hend with
    | not_ok hend =>
    cases hand with
    | not_ok hand =>
    cases hand with
    | not_fail hand =>
    cases hand with
    | seq_ok ha hc =>
    rename_i y2 y3 y4
    obtain ⟨n, hn⟩ := ev_of_ford ha
    obtain ⟨k, hk⟩ := nest_ok hA hn
    have hc := is_ok.mp hc
    obtain ⟨n, hn⟩ := ev_of_ford hb
    obtain ⟨j, hj⟩ := nest_ok hB hn
    have hy : y = [] := by
      cases y with
      | nil => rfl
      | cons c y => have := hend.unique (.cls_ok (f := fun _ => true) rfl); cases this
    have has' := plus_a k y4
    rw [← hk] at has'
    have := has.unique has'
    cases this
    rw [hy, List.append_nil, hc] at hj
    obtain ⟨hkj, hcs⟩ := bs_agree hj
    cases hkj
    exact ⟨k, by rw [hk, hc, hcs]⟩
  · rintro ⟨k, rfl⟩
    refine ⟨[], .seq_ok (.seq_ok (.seq_ok (.not_ok (.not_fail (.seq_ok (nest_run (by decide) hA k _)
      ((is_ok (y := List.replicate k 'c')).mpr rfl)))) (plus_a k _)) ?_) (.not_ok .cls_end)⟩
    have := nest_run (i := 1) (a := 'b') (b := 'c') (by decide) hB k []
    rwa [List.append_nil] at this

example : Matches Abc.rules none "aabbcc".toList Abc.S 0 := (C58_abc _).mpr ⟨1, rfl⟩
example : ¬ Matches Abc.rules none "aabbc".toList Abc.S 0 := fun h => by
  obtain ⟨k, hk⟩ := (C58_abc _).mp h
  match k with
  | 0 => simp at hk
  | 1 => simp at hk
  | k + 2 =>
    have := congrArg List.length hk
    simp at this; omega

/-- Ranges as written in Rust: `2..5`, `3..`, `..=4`, `2`. -/
example : Counts (RangeExpr.range 2 5).toCRange 2 (some 4) ∧ Counts (RangeExpr.rangeFrom 3).toCRange 3 none ∧
    Counts (RangeExpr.rangeToIncl 4).toCRange 0 (some 4) ∧ Counts (RangeExpr.int 2).toCRange 2 (some 2) := by
  refine ⟨⟨by simp, fun k => ?_⟩, ⟨by simp, fun k => ?_⟩, ⟨by simp, fun k => ?_⟩, ⟨by simp, fun k => ?_⟩⟩ <;>
    simp [RangeExpr.toCRange, Bound.allowsFrom, Bound.allowsUpTo, asUsize] <;> omega

/-- A separated list as a PEG: `"1,2,3"` against `digit.sep(',')`. -/
example : AsPeg (β := Nat) (.sep (.once (.pred Char.isDigit) .empty) (.lit [',']) true 1)
    (.list (.cls Char.isDigit) (.lit [',']) 1) := .sep 1 (.once _) (.lit _)

end Neure
