import Verif.Stateful
import Verif.PropsUnit
/-!
# C70: units that remember, inside other units
-/

namespace Neure

set_option linter.unusedSectionVars false
set_option linter.unusedSimpArgs false

open Demo

variable {ι β : Type} [Item ι] {d : List ι}

/-! ## Specification -/

namespace SUnit

/-- Ask about the items in turn as long as they are accepted: the accepted ones, and
the unit afterwards. -/
def ask : SUnit ι → List ι → List ι × SUnit ι
  | s, [] => ([], s)
  | s, x :: l =>
    if (s.isMatch x).1 then (x :: (ask (s.isMatch x).2 l).1, (ask (s.isMatch x).2 l).2)
    else ([], (s.isMatch x).2)

/-- The unit after it has been asked about all of the items in turn. -/
def told (s : SUnit ι) (h : List ι) : SUnit ι := h.foldl (fun s y => (s.isMatch y).2) s

/-- Its answer to `x` after it has been asked about the items `h`. -/
def says (s : SUnit ι) (h : List ι) (x : ι) : Bool := ((s.told h).isMatch x).1

/-- Those of the items it is asked about in turn to which its answer is `v`. -/
def answered (v : Bool) : SUnit ι → List ι → List ι
  | _, [] => []
  | s, x :: l => (if (s.isMatch x).1 = v then [x] else []) ++ answered v (s.isMatch x).2 l

/-- Built from stateless units alone, as `u` is. -/
inductive Plain : SUnit ι → Neu ι → Prop where
  | unit (u) : Plain (.unit u) u
  | not {a u} : Plain a u → Plain (.not a) (.not u)
  | and {a b u v} : Plain a u → Plain b v → Plain (.and a b) (.and u v)
  | or {a b u v} : Plain a u → Plain b v → Plain (.or a b) (.or u v)

end SUnit

/-- What a number literal is: the decimal digits, or `0` and a letter for the radix
with digits of this radix, or just `0`. -/
def literalText (x : List Char) : List Char :=
  match x with
  | '0' :: 'o' :: r => '0' :: 'o' :: r.takeWhile (Unit.digit 8).isMatch
  | '0' :: 'x' :: r => '0' :: 'x' :: r.takeWhile (Unit.digit 16).isMatch
  | '0' :: 'b' :: r => '0' :: 'b' :: r.takeWhile (Unit.digit 2).isMatch
  | '0' :: _ => ['0']
  | _ => x.takeWhile (Unit.digit 10).isMatch

/-- What may follow an octal literal and is taken for more of it: another radix
letter and digits. -/
def literalMore (x : List Char) : List Char :=
  match x with
  | '0' :: 'o' :: r =>
    match r.dropWhile (Unit.digit 8).isMatch with
    | 'x' :: z => 'x' :: z.takeWhile (Unit.digit 16).isMatch
    | 'b' :: z => 'b' :: z.takeWhile (Unit.digit 8).isMatch
    | _ => []
  | _ => []

/-! ## Asking -/

namespace SUnit

theorem ask_append (s : SUnit ι) (x : List ι) : ∃ rest, x = (s.ask x).1 ++ rest := by
  induction x generalizing s with
  | nil => exact ⟨[], rfl⟩
  | cons y x ih =>
    unfold ask
    split
    · obtain ⟨r, hr⟩ := ih (s.isMatch y).2
      exact ⟨r, congrArg (y :: ·) hr⟩
    · exact ⟨_, rfl⟩

theorem scan_ask (s : SUnit ι) (post run : List ι) (beg : Option Nat)
    (hbeg : beg = if run = [] then none else some 0) :
    ∃ rest, post = (s.ask post).1 ++ rest ∧
      (scan (fun _ => true) s run.length beg (indices (blen run) post)).2 = (s.ask post).2 ∧
      (scan (fun _ => true) s run.length beg (indices (blen run) post)).1.beg =
        (if run ++ (s.ask post).1 = [] then none else some 0) ∧
      (scan (fun _ => true) s run.length beg (indices (blen run) post)).1.stop =
        (if rest = [] then none else some (blen (run ++ (s.ask post).1))) := by
  induction post generalizing s run beg with
  | nil => exact ⟨[], rfl, rfl, by simp [indices, scan, ask, hbeg], by simp [indices, scan]⟩
  | cons y post ih =>
    simp only [indices, scan, if_true, ask]
    by_cases h : (s.isMatch y).1 = true
    · obtain ⟨rest, h1, h2, h3, h4⟩ := ih (s.isMatch y).2 (run ++ [y]) (beg.or (some (blen run)))
        (by subst hbeg; cases run <;> simp)
      have e2 : blen (run ++ [y]) = blen run + Item.size y := by simp [blen_append]
      rw [e2, List.length_append, List.length_singleton] at h2 h3 h4
      simp only [h, if_true]
      exact ⟨rest, congrArg (y :: ·) h1, h2, by rw [h3]; simp, by rw [h4]; simp⟩
    · simp only [h, if_false]
      exact ⟨y :: post, rfl, rfl, by simp [hbeg], by simp⟩

theorem scan_upto (more : Nat → Bool) (m : Nat) (hm : ∀ k, more k = decide (k < m)) (s : SUnit ι) (post run : List ι)
    (beg : Option Nat) (hbeg : beg = if run = [] then none else some 0) :
    let t := s.ask (post.take (m - run.length))
    ∃ rest, post = t.1 ++ rest ∧
      (scan more s run.length beg (indices (blen run) post)).2 = t.2 ∧
      (scan more s run.length beg (indices (blen run) post)).1.cnt = (run ++ t.1).length ∧
      (scan more s run.length beg (indices (blen run) post)).1.beg =
        (if run ++ t.1 = [] then none else some 0) ∧
      ((scan more s run.length beg (indices (blen run) post)).1.stop.or
        ((scan more s run.length beg (indices (blen run) post)).1.rest.head?.map (·.1))) =
        (if rest = [] then none else some (blen (run ++ t.1))) := by
  induction post generalizing s run beg with
  | nil => exact ⟨[], by simp [ask], by simp [indices, scan, ask], by simp [indices, scan, ask],
      by simp [indices, scan, ask, hbeg], by simp [indices, scan]⟩
  | cons y post ih =>
    by_cases hlt : run.length < m
    · obtain ⟨j, hj⟩ : ∃ j, m - run.length = j + 1 := ⟨m - run.length - 1, by omega⟩
      simp only [indices, scan, hm, hlt, decide_true, if_true, hj, List.take_succ_cons, ask]
      by_cases h : (s.isMatch y).1 = true
      · obtain ⟨rest, h1, h2, h3, h4, h5⟩ := ih (s.isMatch y).2 (run ++ [y]) (beg.or (some (blen run)))
          (by subst hbeg; cases run <;> simp)
        have e2 : blen (run ++ [y]) = blen run + Item.size y := by simp [blen_append]
        have e3 : m - (run ++ [y]).length = j := by simp; omega
        rw [e3] at h1 h2 h3 h4 h5
        rw [e2, List.length_append, List.length_singleton] at h2 h3 h4 h5
        simp only [h, if_true]
        refine ⟨rest, congrArg (y :: ·) h1, h2, ?_, by rw [h4]; simp, by rw [h5]; simp⟩
        rw [h3]; simp
      · simp only [h, if_false]
        exact ⟨y :: post, rfl, rfl, by simp, by simp [hbeg], by simp⟩
    · have hz : m - run.length = 0 := by omega
      simp only [indices, scan, hm, hlt, decide_false, if_false, hz, List.take_zero, ask]
      exact ⟨y :: post, rfl, rfl, by simp, by simp [hbeg], by simp⟩

end SUnit

/-- **C70 (repetition).** `u.many1()` and `u.many0()` take the items that the unit
accepts when asked about one after the other, and leave it as it is after that. -/
theorem C70_many (s : SUnit ι) (pre x : List ι) :
    s.many1 (pre ++ x) (blen pre) =
      (some (if (s.ask x).1 = [] then .err .many1 (blen pre)
        else .ok ⟨blen pre, blen (s.ask x).1⟩ (blen pre + blen (s.ask x).1)), (s.ask x).2) ∧
    s.many0 (pre ++ x) (blen pre) =
      (some (.ok ⟨blen pre, blen (s.ask x).1⟩ (blen pre + blen (s.ask x).1)), (s.ask x).2) := by
  have hd : dropB (pre ++ x) (blen pre) = some x := dropB_append _ _
  obtain ⟨rest, h1, h2, h3, h4⟩ := SUnit.scan_ask s x [] none (by simp)
  simp only [List.nil_append, List.length_nil, blen_nil] at h2 h3 h4
  have hS := span_of_run (blen pre) (run := (s.ask x).1) (rest := rest)
  simp only [SUnit.many1, SUnit.many0, peek_eq hd, h2, h3, h4, remK_eq hd]
  rw [← h1] at hS
  by_cases he : (s.ask x).1 = []
  · simp [he]
  · rw [if_neg he, if_neg he]
    rw [if_neg he] at hS
    simp only [hS, and_self]

/-- **C70 (counted).** `u.times(..=m)` (or another range ending with `m`): at most `m`
items are asked about, and none when the rest of the text is shorter than the range's
beginning times the length the unit asks for. -/
theorem C70_times (s : SUnit ι) (r : CRange) (m : Nat)
    (hr : ∀ k, r.hi.allowsUpTo k ↔ k ≤ m) (pre x : List ι) :
    s.times (pre ++ x) r (blen pre) =
      if r.needed s.minLength ≤ blen x then
        (some (if r.contains (s.ask (x.take m)).1.length then
            .ok ⟨blen pre, blen (s.ask (x.take m)).1⟩ (blen pre + blen (s.ask (x.take m)).1)
          else .err .times (blen pre)), (s.ask (x.take m)).2)
      else (some (.err .times (blen pre)), s) := by
  have hd : dropB (pre ++ x) (blen pre) = some x := dropB_append _ _
  have hm : ∀ k, r.more k = decide (k < m) := by
    intro k
    have : r.more k = true ↔ k < m := by rw [more_iff, hr]; omega
    by_cases h : k < m
    · simp [h, this.mpr h]
    · simp only [h, decide_false]
      exact Bool.eq_false_iff.mpr fun hh => h (this.mp hh)
  obtain ⟨rest, h1, h2, h3, h4, h5⟩ := SUnit.scan_upto r.more m hm s x [] none (by simp)
  simp only [List.nil_append, List.length_nil, blen_nil, Nat.sub_zero] at h1 h2 h3 h4 h5
  have hS := span_of_run (blen pre) (run := (s.ask (x.take m)).1) (rest := rest)
  rw [← h1] at hS
  have hl : blen pre ≤ blen (pre ++ x) := by rw [blen_append]; exact Nat.le_add_right _ _
  have hb : blen (pre ++ x) - blen pre = blen x := by rw [blen_append, Nat.add_sub_cancel_left]
  simp only [SUnit.times, peek_eq hd, h2, h3, h4, h5, hb, hl, if_true, ge_iff_le]
  rw [hS]
  split
  · split <;> rfl
  · rfl

/-- A sign and three digits. -/
example : (SUnit.prefix1 (.unit (.item '-')) (.unit (Unit.digit 10))).times "-123".toList ⟨.incl 2, .incl 3⟩ 0 =
    (some (.ok ⟨0, 3⟩ 3), .prefix (.unit (.item '-')) (.unit (Unit.digit 10)) 0 true) := by
  have := C70_times (SUnit.prefix1 (.unit (.item '-')) (.unit (Unit.digit 10))) ⟨.incl 2, .incl 3⟩ 3
    (fun k => by simp [Bound.allowsUpTo]) [] "-123".toList
  exact this

/-- **C70 (`or` and `and` ask their parts in order and stop early).** After the same
questions `a.or(b)` says yes when `a` does or `b` does, where `b` has only been asked
about what `a` refused; `a.and(b)` when both do, where `b` has only been asked about what
`a` accepted; `!a` says the opposite of `a`. -/
theorem C70_operators (a b : SUnit ι) (h : List ι) (x : ι) :
    (SUnit.or a b).says h x = (a.says h x || b.says (a.answered false h) x) ∧
    (SUnit.and a b).says h x = (a.says h x && b.says (a.answered true h) x) ∧
    (SUnit.not a).says h x = !a.says h x := by
  have e : ∀ (v : Bool) (y : ι) (a b : SUnit ι), (if (a.isMatch y).1 = v then (b.isMatch y).2 else b) =
      b.told (if (a.isMatch y).1 = v then [y] else []) := by
    intro v y a b; split <;> rfl
  have ho : ∀ (h : List ι) (a b : SUnit ι), (SUnit.or a b).told h = .or (a.told h) (b.told (a.answered false h)) := by
    intro h
    induction h with
    | nil => exact fun _ _ => rfl
    | cons y h ih =>
      intro a b
      show SUnit.told ((SUnit.or a b).isMatch y).2 h = _
      rw [show ((SUnit.or a b).isMatch y).2 = .or (a.isMatch y).2 (if (a.isMatch y).1 = false then (b.isMatch y).2 else b) by
        cases h1 : (a.isMatch y).1 <;> simp [SUnit.isMatch, h1], ih, e]
      simp [SUnit.told, SUnit.answered, List.foldl_append]
  have ha : ∀ (h : List ι) (a b : SUnit ι), (SUnit.and a b).told h = .and (a.told h) (b.told (a.answered true h)) := by
    intro h
    induction h with
    | nil => exact fun _ _ => rfl
    | cons y h ih =>
      intro a b
      show SUnit.told ((SUnit.and a b).isMatch y).2 h = _
      rw [show ((SUnit.and a b).isMatch y).2 = .and (a.isMatch y).2 (if (a.isMatch y).1 = true then (b.isMatch y).2 else b) by
        cases h1 : (a.isMatch y).1 <;> simp [SUnit.isMatch, h1], ih, e]
      simp [SUnit.told, SUnit.answered, List.foldl_append]
  have hn : ∀ (h : List ι) (a : SUnit ι), (SUnit.not a).told h = .not (a.told h) := by
    intro h
    induction h with
    | nil => exact fun _ => rfl
    | cons y h ih => exact fun a => ih _
  refine ⟨?_, ?_, ?_⟩
  · unfold SUnit.says
    rw [ho]
    simp only [SUnit.isMatch]
    split <;> simp [*]
  · unfold SUnit.says
    rw [ha]
    simp only [SUnit.isMatch]
    split <;> simp [*]
  · unfold SUnit.says
    rw [hn]
    rfl

/-- **C70 (`prefix_cnt`).** The first `n` items are for `p`, all others for `u`, be they
stateful themselves; once `p` has rejected an item nothing is accepted any more. -/
theorem C70_prefix (p u : SUnit ι) (n : Nat) (x : List ι) :
    ((SUnit.prefixCnt p n u).ask x).1 =
      (p.ask (x.take n)).1 ++ (if (p.ask (x.take n)).1.length = n then (u.ask (x.drop n)).1 else []) ∧
    (∀ y, (SUnit.prefix p u n false).ask (y :: x) = ([], .prefix p u n false)) ∧
    (SUnit.prefixCnt p n u).minLength = 0 := by
  have zero : ∀ (p u : SUnit ι) x, ((SUnit.prefix p u 0 true).ask x).1 = (u.ask x).1 := by
    intro p u x
    induction x generalizing u with
    | nil => rfl
    | cons y x ih =>
      simp only [SUnit.ask, SUnit.isMatch, if_true]
      split
      · simp only [ih]
      · rfl
  refine ⟨?_, ?_⟩
  · unfold SUnit.prefixCnt
    induction n generalizing p x with
    | zero => simp [SUnit.ask, zero]
    | succ n ih =>
      cases x with
      | nil => simp [SUnit.ask]
      | cons y x =>
        simp only [SUnit.ask, SUnit.isMatch, if_true, Nat.add_one_ne_zero, if_false, List.take_succ_cons,
          List.drop_succ_cons, Nat.add_sub_cancel]
        by_cases h : (p.isMatch y).1 = true
        · simp only [h, if_true, ih, List.length_cons, Nat.add_right_cancel_iff, List.cons_append]
        · simp [h]
  · exact ⟨fun y => by simp [SUnit.ask, SUnit.isMatch], rfl⟩

/-- **C70 (stateless).** A unit without `prefix` inside accepts by itself and stays as
it is. -/
theorem C70_stateless (s : SUnit ι) (u : Neu ι) (hu : s.Plain u) (x : List ι) :
    s.ask x = (x.takeWhile u.isMatch, s) ∧ s.minLength = u.minLength := by
  have h : ∀ y, s.isMatch y = (u.isMatch y, s) := by
    intro y
    induction hu with
    | unit u => rfl
    | not _ ih => simp [SUnit.isMatch, Neu.isMatch, ih]
    | @and _ _ u v _ _ ih1 ih2 => cases h1 : u.isMatch y <;> simp [SUnit.isMatch, Neu.isMatch, ih1, ih2, h1]
    | @or _ _ u v _ _ ih1 ih2 => cases h1 : u.isMatch y <;> simp [SUnit.isMatch, Neu.isMatch, ih1, ih2, h1]
  constructor
  · induction x with
    | nil => rfl
    | cons y x ih =>
      simp only [SUnit.ask, h, List.takeWhile_cons]
      by_cases hy : u.isMatch y = true <;> simp [hy, ih]
  · clear h
    induction hu with
    | unit u => rfl
    | not h1 ih => simp [SUnit.minLength, Neu.minLength, ih]
    | and h1 h2 ih1 ih2 => simp [SUnit.minLength, Neu.minLength, ih1, ih2]
    | or h1 h2 ih1 ih2 => simp [SUnit.minLength, Neu.minLength, ih1, ih2]

/-- **C70 (not reusable).** What is left of `prefix_cnt(p, n, u)` after a match: with
`n` or more items taken it is `u`, without prefix; with fewer it accepts nothing if an
item was refused, and the rest of the prefix is still due if the input was at its end. -/
theorem C70_again (p u : Neu ι) (n : Nat) (x y : List ι) :
    (((SUnit.prefixCnt (.unit p) n (.unit u)).ask x).2.ask y).1 =
      if n ≤ ((SUnit.prefixCnt (.unit p) n (.unit u)).ask x).1.length then y.takeWhile u.isMatch
      else if ((SUnit.prefixCnt (.unit p) n (.unit u)).ask x).1 = x then
        ((SUnit.prefixCnt (.unit p) (n - x.length) (.unit u)).ask y).1
      else [] := by
  have zero : ∀ x : List ι, ((SUnit.prefix (.unit p) (.unit u) 0 true).ask x).2 = .prefix (.unit p) (.unit u) 0 true := by
    intro x
    induction x with
    | nil => rfl
    | cons y x ih =>
      simp only [SUnit.ask, SUnit.isMatch, if_true]
      split
      · exact ih
      · rfl
  have dead : ∀ m (y : List ι), ((SUnit.prefix (.unit p) (.unit u) m false).ask y).1 = [] := by
    intro m y
    cases y <;> simp [SUnit.ask, SUnit.isMatch]
  unfold SUnit.prefixCnt
  induction n generalizing x with
  | zero =>
    rw [zero]
    have := (C70_prefix (.unit p) (.unit u) 0 y).1
    simp only [SUnit.prefixCnt] at this
    simp [this, SUnit.ask, (C70_stateless _ _ (.unit u) _).1]
  | succ n ih =>
    cases x with
    | nil => simp [SUnit.ask]
    | cons z x =>
      simp only [SUnit.ask, SUnit.isMatch, if_true, Nat.add_one_ne_zero, if_false, Nat.add_sub_cancel]
      cases h : p.isMatch z with
      | true =>
        simp only [if_true, List.length_cons, ih, Nat.add_le_add_iff_right, List.cons.injEq, true_and,
          Nat.add_sub_add_right]
      | false => simp [dead]

/-- A signed number, and then another with the same unit: no sign needed any more. -/
example : ((SUnit.prefix1 (.unit (.item '-')) (.unit (Unit.digit 10))).ask ['-', '7', ' ']).1 = ['-', '7'] ∧
    (((SUnit.prefix1 (.unit (.item '-')) (.unit (Unit.digit 10))).ask ['-', '7', ' ']).2.ask ['-', '7']).1 = [] ∧
    (((SUnit.prefix1 (.unit (.item '-')) (.unit (Unit.digit 10))).ask ['-', '7', ' ']).2.ask ['7', ' ']).1 = ['7'] := by
  decide

/-! ## Number literals -/

namespace Radix

/-- The three radix units, as far as they are. -/
def unit (o x b : SUnit Char) : SUnit Char := .or (.or o x) b
def pre (c : Char) (r n : Nat) (v : Bool) : SUnit Char := .prefix (.unit (.item c)) (.unit (Unit.digit r)) n v

theorem digit_le {a b : Nat} (h : a ≤ b) {c : Char} (hc : (Unit.digit a).isMatch c = true) :
    (Unit.digit b).isMatch c = true := by
  unfold Unit.digit Unit.byCode Unit.toDigit Neu.isMatch at *
  simp only [Option.isSome_iff_exists, Option.bind_eq_some_iff] at *
  obtain ⟨n, k, h1, h2⟩ := hc
  refine ⟨k, k, h1, ?_⟩
  split at h2
  · rw [if_pos (by omega)]
  · cases h2

theorem steady (s : SUnit Char) (f : Char → Bool) (h1 : ∀ c, f c = true → s.isMatch c = (true, s))
    (h0 : ∀ c, f c = false → (s.isMatch c).1 = false) (r : List Char) : (s.ask r).1 = r.takeWhile f := by
  induction r with
  | nil => rfl
  | cons c r ih =>
    simp only [SUnit.ask, List.takeWhile_cons]
    cases h : f c with
    | true => simp [h1 c h, ih]
    | false => simp [h0 c h]

/-- Without the prefix in front of it. -/
theorem pre_zero (c : Char) (r : Nat) (y : Char) :
    (pre c r 0 true).isMatch y = ((Unit.digit r).isMatch y, pre c r 0 true) := by
  simp [pre, SUnit.isMatch]

theorem pre_dead (c : Char) (r n : Nat) (y : Char) :
    (pre c r n false).isMatch y = (false, pre c r n false) := by
  simp [pre, SUnit.isMatch]

theorem pre_one (c : Char) (r : Nat) (y : Char) :
    (pre c r 1 true).isMatch y = (y == c, pre c r 0 (y == c)) := by
  simp [pre, SUnit.isMatch, Neu.isMatch, Bool.beq_eq_decide_eq, eq_comm]

theorem hex_b : (Unit.digit 16).isMatch 'b' = true := by decide
theorem oct_x : (Unit.digit 8).isMatch 'x' = false := by decide
theorem oct_b : (Unit.digit 8).isMatch 'b' = false := by decide

theorem not_b {y : Char} (h : (Unit.digit 16).isMatch y = false) : (y == 'b') = false := by
  rw [Bool.eq_false_iff]
  intro hy
  rw [eq_of_beq hy, hex_b] at h
  cases h

theorem hex (v : Bool) (r : List Char) :
    ((unit (pre 'o' 8 0 v) (pre 'x' 16 0 true) (pre 'b' 2 1 true)).ask r).1 =
      r.takeWhile (Unit.digit 16).isMatch := by
  refine steady _ _ (fun c h => ?_) (fun c h => ?_) r
  · cases v with
    | true =>
      simp only [unit, SUnit.isMatch, pre_zero, h]
      split <;> simp
    | false => simp [unit, SUnit.isMatch, pre_zero, pre_dead, h]
  · cases v with
    | true =>
      have h8 : (Unit.digit 8).isMatch c = false :=
        Bool.eq_false_iff.mpr fun h' => by rw [digit_le (by decide) h'] at h; cases h
      simp [unit, SUnit.isMatch, pre_zero, pre_one, h, h8, not_b h]
    | false => simp [unit, SUnit.isMatch, pre_zero, pre_dead, pre_one, h, not_b h]

theorem bin (r : List Char) :
    ((unit (pre 'o' 8 0 false) (pre 'x' 16 0 false) (pre 'b' 2 0 true)).ask r).1 =
      r.takeWhile (Unit.digit 2).isMatch :=
  steady _ _ (fun c h => by simp [unit, SUnit.isMatch, pre_zero, pre_dead, h])
    (fun c h => by simp [unit, SUnit.isMatch, pre_zero, pre_dead, h]) r

theorem octBin (r : List Char) :
    ((unit (pre 'o' 8 0 true) (pre 'x' 16 0 false) (pre 'b' 2 0 true)).ask r).1 =
      r.takeWhile (Unit.digit 8).isMatch :=
  steady _ _ (fun c h => by simp [unit, SUnit.isMatch, pre_zero, pre_dead, h])
    (fun c h => by
      have h2 : (Unit.digit 2).isMatch c = false :=
        Bool.eq_false_iff.mpr fun h' => by rw [digit_le (by decide) h'] at h; cases h
      simp [unit, SUnit.isMatch, pre_zero, pre_dead, h, h2]) r

theorem oct (r : List Char) :
    ((unit (pre 'o' 8 0 true) (pre 'x' 16 1 true) (pre 'b' 2 1 true)).ask r).1 =
      r.takeWhile (Unit.digit 8).isMatch ++ literalMore ('0' :: 'o' :: r) := by
  induction r with
  | nil => simp [SUnit.ask, literalMore]
  | cons c r ih =>
    simp only [SUnit.ask, literalMore, List.takeWhile_cons, List.dropWhile_cons] at ih ⊢
    cases h : (Unit.digit 8).isMatch c with
    | true =>
      simp only [unit, SUnit.isMatch, pre_zero, h, if_true]
      simp only [unit] at ih
      simp [ih]
    | false =>
      by_cases hx : c = 'x'
      · subst hx
        have := hex true r
        simp only [unit] at this
        simp [unit, SUnit.isMatch, pre_zero, pre_one, h, this]
      · by_cases hb : c = 'b'
        · subst hb
          have := octBin r
          simp only [unit] at this
          simp [unit, SUnit.isMatch, pre_zero, pre_one, h, this]
        · have hx' : (c == 'x') = false := by simpa using hx
          have hb' : (c == 'b') = false := by simpa using hb
          simp only [unit, SUnit.isMatch, pre_zero, pre_one, h, hx', hb', Bool.false_eq_true, if_false]
          split
          · rename_i heq; exact absurd (List.cons.inj heq).1 hx
          · rename_i heq; exact absurd (List.cons.inj heq).1 hb
          · rfl

theorem first (x : List Char) :
    ((unit (pre 'o' 8 1 true) (pre 'x' 16 1 true) (pre 'b' 2 1 true)).ask x).1 =
      match x with
      | 'o' :: r => 'o' :: (r.takeWhile (Unit.digit 8).isMatch ++ literalMore ('0' :: 'o' :: r))
      | 'x' :: r => 'x' :: r.takeWhile (Unit.digit 16).isMatch
      | 'b' :: r => 'b' :: r.takeWhile (Unit.digit 2).isMatch
      | _ => [] := by
  cases x with
  | nil => rfl
  | cons c r =>
    simp only [SUnit.ask]
    by_cases ho : c = 'o'
    · subst ho
      have := oct r
      simp only [unit] at this
      simp [unit, SUnit.isMatch, pre_one, this]
    · by_cases hx : c = 'x'
      · subst hx
        have := hex false r
        simp only [unit] at this
        simp [unit, SUnit.isMatch, pre_one, this]
      · by_cases hb : c = 'b'
        · subst hb
          have := bin r
          simp only [unit] at this
          simp [unit, SUnit.isMatch, pre_one, this]
        · have ho' : (c == 'o') = false := by simpa using ho
          have hx' : (c == 'x') = false := by simpa using hx
          have hb' : (c == 'b') = false := by simpa using hb
          simp only [unit, SUnit.isMatch, pre_one, ho', hx', hb', Bool.false_eq_true, if_false]
          split
          · rename_i heq; exact absurd (List.cons.inj heq).1 ho
          · rename_i heq; exact absurd (List.cons.inj heq).1 hx
          · rename_i heq; exact absurd (List.cons.inj heq).1 hb
          · rfl

theorem number (x : List Char) :
    (radixUnit.ask x).1 = if x.head? = some '0' then literalText x ++ literalMore x else [] := by
  have h := (C70_prefix (.unit (.item '0')) (unit (pre 'o' 8 1 true) (pre 'x' 16 1 true) (pre 'b' 2 1 true)) 1 x).1
  have e : radixUnit = SUnit.prefixCnt (.unit (.item '0')) 1
    (unit (pre 'o' 8 1 true) (pre 'x' 16 1 true) (pre 'b' 2 1 true)) := rfl
  rw [e, h, first]
  cases x with
  | nil => rfl
  | cons c r =>
    by_cases hc : c = '0'
    · subst hc
      have : ((SUnit.unit (Neu.item '0')).ask (['0'] : List Char)).1 = ['0'] := rfl
      simp only [List.take_succ_cons, List.take_zero, this, List.length_singleton, if_true, List.drop_succ_cons,
        List.drop_zero, List.head?_cons]
      cases r with
      | nil => rfl
      | cons e r =>
        simp only [literalText]
        split
        · rename_i heq; cases heq; rfl
        · rename_i heq; cases heq; simp [literalMore]
        · rename_i heq; cases heq; simp [literalMore]
        · rename_i h1 h2 h3
          split
          · rename_i heq; cases heq; exact absurd rfl (h1 _)
          · rename_i heq; cases heq; exact absurd rfl (h2 _)
          · rename_i heq; cases heq; exact absurd rfl (h3 _)
          · unfold literalMore
            split
            · rename_i heq; cases heq; exact absurd rfl (h1 _)
            · rfl
          · rename_i hh; exact absurd rfl (hh _)
    · have hc' : ¬ '0' = c := fun h => hc h.symm
      simp [SUnit.ask, SUnit.isMatch, Neu.isMatch, hc, hc']

end Radix

/-- **C70 (number literals, exactly).** What the example of `neu::prefix`,
`num.many1().or(dec.many1())` with new units, takes at any place of any text: the
literal, and after an octal one also what follows another radix letter. -/
theorem C70_radix (pre x : List Char) :
    radixLiteral (pre ++ x) (blen pre) =
      some (if literalText x = [] then .err .many1 (blen pre)
        else .ok ⟨blen pre, blen (literalText x ++ literalMore x)⟩
          (blen pre + blen (literalText x ++ literalMore x))) := by
  unfold radixLiteral
  rw [(C70_many radixUnit pre x).1, (C70_many (.unit (Unit.digit 10)) pre x).1,
    (C70_stateless _ _ (.unit (Unit.digit 10)) x).1, Radix.number]
  by_cases h : x.head? = some '0'
  · obtain ⟨r, rfl⟩ : ∃ r, x = '0' :: r := by
      cases x with
      | nil => cases h
      | cons c r => injection h with h; exact ⟨r, by rw [h]⟩
    have hne : literalText ('0' :: r) ≠ [] := by
      unfold literalText; split <;> simp_all
    have hne' : literalText ('0' :: r) ++ literalMore ('0' :: r) ≠ [] := by simp [hne]
    simp [hne, hne', caseR]
  · have hm : literalMore x = [] := by
      unfold literalMore; split
      · exact absurd rfl h
      · rfl
    have ht : literalText x = x.takeWhile (Unit.digit 10).isMatch := by
      unfold literalText; split <;> first | exact absurd rfl h | rfl
    simp only [h, if_false, if_true, caseR, hm, ht, List.append_nil]

/-- **C70 (number literals).** Full statement: the example takes the literal and no
more.  Proved: for every text in which no octal literal is followed by another radix
letter; `C70_radix` says what happens there. -/
theorem C70_radix_partial (pre x : List Char) (h : literalMore x = []) :
    radixLiteral (pre ++ x) (blen pre) =
      some (if literalText x = [] then .err .many1 (blen pre)
        else .ok ⟨blen pre, blen (literalText x)⟩ (blen pre + blen (literalText x))) := by
  rw [C70_radix, h, List.append_nil]

/-- The texts of the documentation: `99EF`, `0x99EF`, `0o7389EF`, `0b01102`, `x99EF`. -/
example : literalMore "99EF".toList = [] ∧ literalMore "0x99EF".toList = [] ∧
    literalMore "0o7389EF".toList = [] ∧ literalMore "0b01102".toList = [] ∧
    literalText "0x99EF".toList = "0x99EF".toList ∧ literalText "0o7389EF".toList = "0o73".toList ∧
    literalText "0b01102".toList = "0b0110".toList ∧ literalText "99EF".toList = "99".toList ∧
    literalText "x99EF".toList = [] := by decide

/-- **C70 (counterexample).** `0o7x9F` is taken as one number literal, although `0o7`
is one. -/
theorem C70_radix_counterexample :
    literalText "0o7x9F".toList = "0o7".toList ∧
      radixLiteral "0o7x9F".toList 0 = some (.ok ⟨0, 6⟩ 6) := by
  refine ⟨by decide, ?_⟩
  have := C70_radix [] "0o7x9F".toList
  simpa using this.trans (by decide)

end Neure
