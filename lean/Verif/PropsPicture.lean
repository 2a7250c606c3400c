import Verif.PropsSkipFind
import Verif.PropsCtorComb
import Verif.PropsCtorLoop
import Verif.PropsCtorBase
import Verif.PropsComb
/-!
# C96: the picture of the `skip_before` documentation

The documentation of `RegexCtx::skip_before` collects the parts of a text between `X`s and prints them
at their places.  For every text, what is printed is the text with a space for every `X`, up to the last
character that is not `X`.
-/

namespace Neure

namespace Picture

open Demo

/-- `Dat` of the example, `src/ctx/regex.rs:132-137`: the span and its text. -/
abbrev Dat := Span × List Char

/-- The regex given to `skip_before`, `src/ctx/regex.rs:155-160`: `'X'.many0()` matched on the inner
context.  The guard around it does nothing: `many0()` of a unit without a condition does not fail (C23). -/
def skipX : Pat Char Dat := .many0 (.item 'X') .empty

/-- `"\n".or('X'.not().many1())`, `src/ctx/regex.rs:153-154`. -/
def text : Pat Char Dat := .or (.lit ['\n']) (.many1 (.not (.item 'X')) .empty)

/-- `text.repeat(1..)`, `src/ctx/regex.rs:162`. -/
def picture : Pat Char Dat := .rep text ⟨.incl 1, .unb⟩

/-- The closure given to `ctor_with`, `src/ctx/regex.rs:162-167`: `span.orig(ctx)?`. -/
def datH : Handler Char Dat Unit := fun d _ s st => match origSub d s.beg s.len with
  | .ok t => (.ok (s, t), st)
  | .err e => (.err e, st)
  | .panic => (.panic, st)

/-- What the loop of `src/ctx/regex.rs:168-187` prints, from `off` on. -/
def printed : Nat → List Dat → List Char
  | _, [] => []
  | off, (s, t) :: l =>
    if off < s.beg then List.replicate (s.beg - off) ' ' ++ t ++ printed (s.beg + s.len) l
    else t ++ printed (off + s.len) l

/-! ## Specification -/

/-- A space for every `X`. -/
def unX (c : Char) : Char := if c = 'X' then ' ' else c

/-! ## One piece -/

theorem blen_xs (k : Nat) : blen (List.replicate k 'X') = k := by
  induction k with
  | zero => rfl
  | succ k ih => rw [List.replicate_succ, blen, ih]; show 1 + k = k + 1; omega

theorem takeWhile_xs (k : Nat) {rest : List Char} (h : rest.head? ≠ some 'X') :
    (List.replicate k 'X' ++ rest).takeWhile (Neu.isMatch (.item 'X')) = List.replicate k 'X' := by
  rw [takeWhile_prefixed]
  · cases rest with
    | nil => simp
    | cons c r =>
      have : c ≠ 'X' := fun e => h (by simp [e])
      have : Neu.isMatch (.item 'X') c = false := by
        simp only [Neu.isMatch]; exact decide_eq_false (fun e => this (by simpa using e.symm))
      simp [this]
  · intro c hc
    rw [List.eq_of_mem_replicate hc]; decide

/-- The skip stops behind the `X`s. -/
theorem skip_runs {d : List Char} (pre : List Char) (k : Nat) {rest : List Char} (h : rest.head? ≠ some 'X')
    (hd : d = pre ++ (List.replicate k 'X' ++ rest)) :
    Runs G0 none d skipX (blen pre) (.ok ⟨blen pre, k⟩ (blen pre + k)) := by
  have := (C23_many0_takeWhile (β := Dat) (G := G0) (pol := none) (.item 'X') pre _ hd
    (.ok ⟨blen pre, k⟩ (blen pre + k))).mpr (by rw [takeWhile_xs k h, blen_xs])
  exact this


/-- The text of the piece that begins a text. -/
def pieceOf (rest : List Char) : List Char :=
  if rest.head? = some '\n' then ['\n'] else rest.takeWhile (· ≠ 'X')

theorem lit_at {d : List Char} (pre : List Char) (k : Nat) {rest : List Char} (h : rest.head? ≠ some 'X')
    (hd : d = pre ++ (List.replicate k 'X' ++ rest)) (r : Res Span) :
    Runs G0 (some skipX) d (.lit ['\n']) (blen pre) r ↔
      r = if rest.head? = some '\n' then .ok ⟨blen pre + k, 1⟩ (blen pre + k + 1) else .err .literal (blen pre + k) := by
  have hk : blen pre + k = blen (pre ++ List.replicate k 'X') := by rw [blen_append, blen_xs]
  rw [runs_after (skip_runs pre k h hd), hk,
    C12_literal (pre ++ List.replicate k 'X') rest ['\n'] (by rw [hd, List.append_assoc])]
  have hh : (∃ t, rest = ['\n'] ++ t) ↔ rest.head? = some '\n' := by
    cases rest with
    | nil => simp
    | cons c r => simp
  have hb : blen ['\n'] = 1 := by decide
  rw [hh, hb]
  split
  · next e => simp [e]
  · next e => simp [e]

theorem many_at {d : List Char} (pre : List Char) (k : Nat) {rest : List Char} (h : rest.head? ≠ some 'X')
    (hd : d = pre ++ (List.replicate k 'X' ++ rest)) (r : Res Span) :
    Runs G0 (some skipX) d (.many1 (.not (.item 'X')) .empty) (blen pre) r ↔
      r = if rest = [] then .err .many1 (blen pre + k) else
        .ok ⟨blen pre + k, blen (rest.takeWhile (· ≠ 'X'))⟩ (blen pre + k + blen (rest.takeWhile (· ≠ 'X'))) := by
  have hk : blen pre + k = blen (pre ++ List.replicate k 'X') := by rw [blen_append, blen_xs]
  rw [runs_after (skip_runs pre k h hd), hk,
    C23_many1_takeWhile _ (pre ++ List.replicate k 'X') rest (by rw [hd, List.append_assoc])]
  have hf : Neu.isMatch (.not (.item 'X')) = fun c : Char => decide (c ≠ 'X') := by
    funext c
    simp only [Neu.isMatch]
    by_cases e : c = 'X'
    · subst e; decide
    · simp [e, eq_comm]
  have hn : rest.takeWhile (fun c => decide (c ≠ 'X')) = [] ↔ rest = [] := by
    cases rest with
    | nil => simp
    | cons c r =>
      have : c ≠ 'X' := fun e => h (by simp [e])
      simp [this]
  rw [hf]
  by_cases e : rest = []
  · rw [if_pos e, if_pos (hn.mpr e)]
  · rw [if_neg e, if_neg (fun x => e (hn.mp x))]

/-- The next piece. -/
theorem piece {d : List Char} (pre : List Char) (k : Nat) {rest : List Char} (h : rest.head? ≠ some 'X')
    (hne : rest ≠ []) (hd : d = pre ++ (List.replicate k 'X' ++ rest)) :
    Constructs G0 datH (some skipX) d text () (blen pre)
      (.ok (.base (⟨blen pre + k, blen (pieceOf rest)⟩, pieceOf rest)) () (blen pre + k + blen (pieceOf rest))) := by
  have hsub : ∀ t post, rest = t ++ post → origSub d (blen pre + k) (blen t) = .ok t := by
    intro t post e
    refine origSub_ok.mpr ⟨pre ++ List.replicate k 'X', post, by rw [hd, e]; simp, ?_, rfl⟩
    rw [blen_append, blen_xs]
  refine ((C06_or_construct _ _ () _).1 _ _ _).mpr ?_
  unfold pieceOf
  by_cases hn : rest.head? = some '\n'
  · rw [if_pos hn]
    left
    refine ((C52_primitive_construct _ (by exact trivial) () _).1 _ _ _).mpr
      ⟨⟨blen pre + k, 1⟩, _, (lit_at pre k h hd _).mpr (by rw [if_pos hn]; rfl), ?_, rfl⟩
    obtain ⟨r, rfl⟩ : ∃ r, rest = '\n' :: r := by
      cases rest with
      | nil => cases hn
      | cons c r => exact ⟨r, by simpa using hn⟩
    have := hsub ['\n'] r rfl
    simp only [datH, show blen ['\n'] = 1 by decide] at this ⊢
    rw [this]
  · rw [if_neg hn]
    right
    refine ⟨.literal, (), blen pre + k, ((C52_primitive_construct _ (by exact trivial) () _).2.1 _ _ _).mpr
      (.inl ⟨(lit_at pre k h hd _).mpr (by rw [if_neg hn]), rfl⟩), ?_⟩
    refine ((C52_primitive_construct _ (by exact trivial) () _).1 _ _ _).mpr
      ⟨⟨blen pre + k, blen (rest.takeWhile (· ≠ 'X'))⟩, _, (many_at pre k h hd _).mpr (by rw [if_neg hne]), ?_, rfl⟩
    have := hsub (rest.takeWhile (· ≠ 'X')) (rest.dropWhile (· ≠ 'X')) (List.takeWhile_append_dropWhile).symm
    simp only [datH]
    rw [this]

/-- Behind the last piece. -/
theorem no_piece {d : List Char} (pre : List Char) (k : Nat) (hd : d = pre ++ List.replicate k 'X') :
    Constructs G0 datH (some skipX) d text () (blen pre) (.err .many1 () (blen pre)) := by
  have hd' : d = pre ++ (List.replicate k 'X' ++ []) := by rw [hd]; simp
  have h : ([] : List Char).head? ≠ some 'X' := by simp
  refine ((C06_or_construct _ _ () _).2.1 _ _ _).mpr ⟨rfl, .literal, (), blen pre + k, blen pre + k, ?_, ?_⟩
  · exact ((C52_primitive_construct _ (by exact trivial) () _).2.1 _ _ _).mpr (.inl ⟨(lit_at pre k h hd' _).mpr rfl, rfl⟩)
  · exact ((C52_primitive_construct _ (by exact trivial) () _).2.1 _ _ _).mpr (.inl ⟨(many_at pre k h hd' _).mpr rfl, rfl⟩)

/-! ## All pieces -/

theorem split_xs (body : List Char) : ∃ k rest, body = List.replicate k 'X' ++ rest ∧ rest.head? ≠ some 'X' := by
  induction body with
  | nil => exact ⟨0, [], rfl, by simp⟩
  | cons c b ih =>
    by_cases e : c = 'X'
    · obtain ⟨k, rest, rfl, h⟩ := ih
      exact ⟨k + 1, rest, by rw [e, List.replicate_succ]; rfl, h⟩
    · exact ⟨0, c :: b, rfl, by simpa using e⟩

/-- The piece is a beginning of the text without `X`. -/
theorem pieceOf_front {rest : List Char} (h : rest.head? ≠ some 'X') (hne : rest ≠ []) (tail : List Char)
    (ht : tail.head? = some 'X' ∨ tail = []) :
    ∃ post, rest = pieceOf (rest ++ tail) ++ post ∧ pieceOf (rest ++ tail) ≠ [] ∧ ∀ c ∈ pieceOf (rest ++ tail), c ≠ 'X' := by
  obtain ⟨c, r, rfl⟩ := List.exists_cons_of_ne_nil hne
  have hc : c ≠ 'X' := fun e => h (by simp [e])
  unfold pieceOf
  split
  · next hn =>
    have : c = '\n' := by simpa using hn
    subst this
    exact ⟨r, rfl, by simp, by simp⟩
  · have htw : ((c :: r) ++ tail).takeWhile (fun c => decide (c ≠ 'X')) = (c :: r).takeWhile (fun c => decide (c ≠ 'X')) := by
      rw [List.takeWhile_append]
      split
      · next e =>
        have : tail.takeWhile (fun c => decide (c ≠ 'X')) = [] := by
          rcases ht with ht | rfl
          · cases tail with
            | nil => cases ht
            | cons x t => simp at ht; subst ht; simp
          · rfl
        rw [this, List.append_nil]
        exact ((List.takeWhile_prefix _).eq_of_length e).symm
      · rfl
    rw [htw]
    refine ⟨_, (List.takeWhile_append_dropWhile).symm, by simp [hc], ?_⟩
    intro x hx
    have := List.all_eq_true.mp (List.all_takeWhile (p := fun c : Char => decide (c ≠ 'X')) (l := c :: r)) x hx
    simpa using this

theorem unX_piece {t : List Char} (h : ∀ c ∈ t, c ≠ 'X') : t.map unX = t := by
  induction t with
  | nil => rfl
  | cons c t ih =>
    simp only [List.map_cons, unX, if_neg (h c (by simp))]
    rw [show t.map unX = t from ih fun c hc => h c (by simp [hc])]

theorem printed_cons (o k : Nat) (t : List Char) (l : List Dat) :
    printed o ((⟨o + k, blen t⟩, t) :: l) = List.replicate k ' ' ++ t ++ printed (o + k + blen t) l := by
  simp only [printed]
  by_cases h : o < o + k
  · rw [if_pos h, Nat.add_sub_cancel_left]
  · have : k = 0 := by omega
    subst this; simp

theorem pieces_built {d : List Char} (n : Nat) : ∀ (pre body : List Char) (k : Nat), body.length ≤ n →
    body.getLast? ≠ some 'X' → d = pre ++ (body ++ List.replicate k 'X') →
    ∃ l : List Dat, Built G0 datH (some skipX) d text (l.map .base) () (blen pre) () (blen (pre ++ body)) ∧
      printed (blen pre) l = body.map unX ∧ l.flatMap (·.2) = body.filter (· ≠ 'X') ∧ (body ≠ [] → l ≠ []) := by
  induction n with
  | zero =>
    intro pre body k hn _ _
    have : body = [] := List.length_eq_zero_iff.mp (by omega)
    subst this
    exact ⟨[], by simpa using Built.nil () (blen pre), rfl, rfl, fun h => absurd rfl h⟩
  | succ n ih =>
    intro pre body k hn hl hd
    obtain ⟨j, rest, rfl, hr⟩ := split_xs body
    by_cases hne : rest = []
    · subst hne
      have : j = 0 := by
        cases j with
        | zero => rfl
        | succ j => simp [List.getLast?_replicate] at hl
      subst this
      exact ⟨[], by simpa using Built.nil () (blen pre), rfl, rfl, fun h => absurd rfl h⟩
    · obtain ⟨post, hp1, hp2, hp3⟩ := pieceOf_front hr hne (List.replicate k 'X') (by cases k <;> simp [List.replicate_succ])
      have hd1 : d = pre ++ (List.replicate j 'X' ++ (rest ++ List.replicate k 'X')) := by rw [hd]; simp
      have hh : (rest ++ List.replicate k 'X').head? ≠ some 'X' := by
        cases rest with
        | nil => exact absurd rfl hne
        | cons c r => simpa using hr
      have c1 := piece pre j hh (by simp [hne]) hd1
      generalize pieceOf (rest ++ List.replicate k 'X') = t at hp1 hp2 hp3 c1
      subst hp1
      have hlen : post.length ≤ n := by
        have : 0 < t.length := List.length_pos_iff.mpr hp2
        simp at hn; omega
      have hlast : post.getLast? ≠ some 'X' := by
        intro e
        apply hl
        simp [List.getLast?_append, e]
      obtain ⟨l, b1, b2, b3, -⟩ := ih (pre ++ List.replicate j 'X' ++ t) post k hlen hlast (by rw [hd]; simp)
      have hb : blen (pre ++ List.replicate j 'X' ++ t) = blen pre + j + blen t := by
        rw [blen_append, blen_append, blen_xs]
      rw [hb] at b1 b2
      refine ⟨(⟨blen pre + j, blen t⟩, t) :: l, ?_, ?_, ?_, fun _ => by simp⟩
      · have e : pre ++ (List.replicate j 'X' ++ (t ++ post)) = pre ++ List.replicate j 'X' ++ t ++ post := by simp
        rw [e]
        exact .cons c1 b1
      · rw [printed_cons, b2]
        simp [unX_piece hp3, unX]
      · have ft : t.filter (fun c => decide (c ≠ 'X')) = t := List.filter_eq_self.mpr fun c hc => by simp [hp3 c hc]
        have fx : (List.replicate j 'X').filter (fun c => decide (c ≠ 'X')) = [] := by simp
        simp only [List.flatMap_cons, List.filter_append, ft, fx, b3, List.nil_append]

/-! ## The example -/

/-- **C96.** Every text is some `body` that does not end in `X`, and `k` times `X`.  If `body` is not empty
the example builds its list of pieces: printed, the pieces are `body` with a space for every `X`; read one
after the other, they are `body` without its `X`s; the context is left behind `body`. -/
theorem _root_.Neure.C96_picture (body : List Char) (k : Nat) (h : body.getLast? ≠ some 'X') (hne : body ≠ []) :
    ∃ l : List Dat, Constructs G0 datH (some skipX) (body ++ List.replicate k 'X') picture () 0
        (.ok (.list (l.map .base)) () (blen body)) ∧
      printed 0 l = body.map unX ∧ l.flatMap (·.2) = body.filter (· ≠ 'X') := by
  obtain ⟨l, b1, b2, b3, b4⟩ := pieces_built (d := body ++ List.replicate k 'X') body.length [] body k (Nat.le_refl _) h rfl
  refine ⟨l, ((C13_repeat_construct _ _ () _).1 _ _ _).mpr ⟨l.map .base, (), blen body, rfl, b1, ?_, ?_, .inr ⟨?_, .many1, ?_⟩⟩, b2, b3⟩
  · have : l ≠ [] := b4 hne
    show 1 ≤ (l.map Val.base).length
    have := List.length_pos_iff.mpr this
    rw [List.length_map]; omega
  · trivial
  · trivial
  · exact no_piece body k rfl

/-- **C96 (nothing to draw).** A text of `X`s only, or no text, is an error, and the context stays at the beginning. -/
theorem _root_.Neure.C96_blank (k : Nat) (r : CRes Unit (Val Dat)) :
    Constructs G0 datH (some skipX) (List.replicate k 'X') picture () 0 r ↔ r = .err .repeat_ () 0 := by
  have h : Constructs G0 datH (some skipX) (List.replicate k 'X') picture () 0 (.err .repeat_ () 0) := by
    refine ((C13_repeat_construct _ _ () _).2 _ _ _).mpr ⟨rfl, rfl, [], (), 0, .nil () 0, .inl rfl, ?_, .inr ⟨trivial, .many1, 0, ?_⟩⟩
    · rintro ⟨h, -⟩
      exact absurd (show 1 ≤ 0 from h) (by omega)
    · exact no_piece [] k rfl
  exact ⟨fun h' => Constructs.unique h' h, fun e => e ▸ h⟩

/-- Every text is of one of the two forms. -/
theorem _root_.Neure.C96_every_text (d : List Char) : ∃ body k, d = body ++ List.replicate k 'X' ∧ body.getLast? ≠ some 'X' := by
  obtain ⟨k, rest, h1, h2⟩ := split_xs d.reverse
  refine ⟨rest.reverse, k, ?_, by simpa using h2⟩
  have := congrArg List.reverse h1
  simpa using this

/-- Two lines of the picture. -/
example : ∃ l : List Dat, Constructs G0 datH (some skipX) ("\nXXOOX\nXOXX".toList) picture () 0
      (.ok (.list (l.map .base)) () 9) ∧ printed 0 l = "\n  OO \n O".toList ∧ l.flatMap (·.2) = "\nOO\nO".toList :=
  C96_picture "\nXXOOX\nXO".toList 2 (by decide) (by decide)

end Picture

end Neure
