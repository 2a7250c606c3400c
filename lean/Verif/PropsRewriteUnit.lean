import Verif.PropsRewriteIn
/-!
# C84: unit methods that may replace each other

`opt`, `once`, `many0`, `many1`, `between`, `times` and `then` of units are special cases of each
other and of the combinators of the same name, on positions of the input.
-/

namespace Neure

set_option linter.unusedSectionVars false
set_option linter.unusedSimpArgs false
set_option linter.unusedVariables false

open Demo

variable {ι β σ : Type} [Item ι] {G G' : Rules ι β} {H : Handler ι β σ} {pol : Option (Pat ι β)}
  {E : Error → Error → Prop} {p p' q : Pat ι β} {d : List ι} {o : Nat} {st : σ}

theorem anyError_equiv : Equivalence AnyError := ⟨fun _ => trivial, fun _ => trivial, fun _ _ => trivial⟩

theorem eq_equiv : Equivalence (@Eq Error) := ⟨fun _ => rfl, fun h => h.symm, fun h h' => h.trans h'⟩

theorem actIn_of_eq (h : ∀ d o post, dropB d o = some post → parseL G pol d p o = parseL G pol d p' o) :
    ActAlikeIn Eq G pol p p' := by
  rw [actAlikeIn_iff]
  intro d o ho
  obtain ⟨post, hd⟩ := valid_iff_dropB.mp ho
  rw [h d o post hd]
  exact ⟨.of_le (fun _ => rfl) (Le.refl _), .of_le (E := fun a b => b = a) (fun _ => rfl) (Le.refl _)⟩

/-- Both fail at the same position, or both return the same. -/
theorem actIn_of_err (h : ∀ d o post, dropB d o = some post →
    parseL G pol d p o = parseL G pol d p' o ∨
      ∃ e e' o', parseL G pol d p o = some (.err e o') ∧ parseL G pol d p' o = some (.err e' o')) :
    ActAlikeIn AnyError G pol p p' := by
  rw [actAlikeIn_iff]
  intro d o ho
  obtain ⟨post, hd⟩ := valid_iff_dropB.mp ho
  rcases h d o post hd with h | ⟨e, e', o', h1, h2⟩
  · rw [h]
    exact ⟨.of_le (fun _ => trivial) (Le.refl _), .of_le (fun _ => trivial) (Le.refl _)⟩
  · rw [h1, h2]
    exact ⟨err_leE trivial _, err_leE trivial _⟩

/-- Patterns that construct by handing their span to the handler: alike as matchers is enough. -/
theorem leaf_build (hE : Equivalence E) (hpol : InsidePol G pol) (hp : All G (Inside G pol) p)
    (hp' : All G (Inside G pol) p') (hl : Leaf p) (hl' : Leaf p') (h : ActAlikeIn E G pol p p') :
    WhollyAlikeIn E G H pol p p' := by
  have hr := runsIn_valid (boundPol_of hpol)
  have go {p p' : Pat ι β} (hp : All G (Inside G pol) p) (h : ActAlikeIn E G pol p p') (d : List ι) (st : σ) (o : Nat)
      (ho : Valid d o) : LeCE E (invokeK H d st (matL G pol d p o)) (invokeK H d st (matL G pol d p' o)) :=
    invokeK_leE hE.refl (matL_leK hE.refl (K := Valid) (skipsK_valid hpol)
      (fun o ho => ⟨h.le ho, fun r hr' => hr.stays hp d o r ho (parses_iff.mpr hr')⟩) o ho).1
  refine ⟨h, buildAlikeIn_iff.mpr fun d st o ho => ?_⟩
  rw [conL_leaf _ _ _ _ _ _ hl, conL_leaf _ _ _ _ _ _ hl']
  have hE' : (fun a b => E b a) = E := by
    funext a b; exact propext ⟨hE.symm, hE.symm⟩
  rw [hE']
  exact ⟨go hp h d st o ho, go hp' (h.symm hE) d st o ho⟩

/-! ## One item or none -/

theorem optU_between (u : Neu ι) (c : Cond ι β) : ActAlikeIn Eq G pol (.optU u c) (.between 0 1 u c) := by
  refine actIn_of_eq fun d o post hd => ?_
  rw [parseL_optU, parseL_between, optUParse, betweenParse, remK_eq hd, peek_eq hd]
  simp only [caseO, remK_eq hd, Nat.zero_mul, Nat.zero_le, ge_iff_le, if_true]
  cases post with
  | nil => simp [indices, scan, caseO, calcLength, spanK, newSpanInc]
  | cons x tl =>
    simp only [indices_cons, scan, Nat.lt_one_iff, decide_true, if_true]
    rcases testItem (matL G pol) d o u c (0, x) with _ | (_ | _) | _ | _
    · rfl
    · simp [caseO, calcLength, spanK, newSpanInc]
    · cases tl with
      | nil => simp [caseO, indices, scan]
      | cons y tl => simp [caseO, indices_cons, scan]
    · rfl
    · rfl

theorem once_between (u : Neu ι) (hf : u.Fair) (c : Cond ι β) :
    ActAlikeIn AnyError G pol (.once u c) (.between 1 1 u c) := by
  refine actIn_of_err fun d o post hd => ?_
  rw [parseL_once, parseL_between, onceParse, betweenParse, peek_eq hd]
  simp only [caseO, remK_eq hd, Nat.one_mul, ge_iff_le]
  cases post with
  | nil =>
    refine .inr ⟨.once, .between, o, ?_, ?_⟩
    · simp [indices]
    · simp only [indices, scan, caseO]
      split <;> simp
  | cons x tl =>
    simp only [indices_cons]
    by_cases hx : u.isMatch x = true
    · have := hf x hx
      rw [if_pos (by simp only [blen_cons]; omega)]
      simp only [scan, Nat.lt_one_iff, decide_true, if_true]
      rcases testItem (matL G pol) d o u c (0, x) with _ | (_ | _) | _ | _
      · exact .inl rfl
      · exact .inr ⟨.once, .between, o, by simp [caseO], by simp [caseO]⟩
      · left
        cases tl with
        | nil => simp [caseO, indices, scan]
        | cons y tl => simp [caseO, indices_cons, scan]
      · exact .inl rfl
      · exact .inl rfl
    · refine .inr ⟨.once, .between, o, by simp [testItem, check, hx, caseO], ?_⟩
      split
      · simp [scan, testItem, check, hx, caseO]
      · rfl

/-! ## Any number of items -/

theorem scan_rest {test : Nat × ι → Option (Out Bool)} {cnt : Nat} {beg : Option Nat} {it : List (Nat × ι)}
    {s : Scan ι} (h : scan test (fun _ => true) cnt beg it = some (.ok s)) (h0 : cnt = 0 ↔ beg = none) :
    s.stop.or (s.rest.head?.map (·.1)) = s.stop ∧ (s.cnt = 0 ↔ s.beg = none) := by
  induction it generalizing cnt beg with
  | nil =>
    simp only [scan] at h
    cases h
    exact ⟨rfl, h0⟩
  | cons pr it ih =>
    simp only [scan, if_true] at h
    split at h
    · cases h
    · cases h
    · cases h
    · exact ih h (by cases beg <;> simp)
    · cases h
      exact ⟨rfl, h0⟩

theorem many0_times (u : Neu ι) (c : Cond ι β) : ActAlikeIn Eq G pol (.many0 u c) (.times ⟨.unb, .unb⟩ u c) := by
  refine actIn_of_eq fun d o post hd => ?_
  rw [parseL_many0, parseL_times, many0Parse, timesParse, remK_eq hd, peek_eq hd]
  have hm : CRange.more ⟨.unb, .unb⟩ = fun _ => true := rfl
  simp only [caseO, remK_eq hd, CRange.needed, hm, Nat.zero_le, ge_iff_le, if_true]
  cases hs : scan (testItem (matL G pol) d o u c) (fun _ => true) 0 none (indices 0 post) with
  | none => rfl
  | some x =>
    cases x with
    | panic => rfl
    | err e => rfl
    | ok s =>
      obtain ⟨h1, h2⟩ := scan_rest hs (by simp)
      simp only [caseO, CRange.contains, Bool.and_self, if_true, h1]
      cases s.beg with
      | none => simp [calcLength, spanK, newSpanInc]
      | some b => rfl

theorem many1_times (u : Neu ι) (hf : u.Fair) (c : Cond ι β) :
    ActAlikeIn AnyError G pol (.many1 u c) (.times ⟨.incl 1, .unb⟩ u c) := by
  refine actIn_of_err fun d o post hd => ?_
  rw [parseL_many1, parseL_times, many1Parse, timesParse, peek_eq hd]
  have hm : CRange.more ⟨.incl 1, .unb⟩ = fun _ => true := rfl
  simp only [caseO, remK_eq hd, CRange.needed, hm, Nat.one_mul, ge_iff_le]
  by_cases hlen : u.minLength ≤ blen post
  · rw [if_pos hlen]
    cases hs : scan (testItem (matL G pol) d o u c) (fun _ => true) 0 none (indices 0 post) with
    | none => exact .inl rfl
    | some x =>
      cases x with
      | panic => exact .inl rfl
      | err e => exact .inl rfl
      | ok s =>
        obtain ⟨h1, h2⟩ := scan_rest hs (by simp)
        simp only [caseO, CRange.contains, Bool.and_true, h1, decide_eq_true_eq]
        cases hb : s.beg with
        | none =>
          rw [hb] at h2
          rw [if_neg (by have := h2.mpr rfl; omega)]
          exact .inr ⟨_, _, _, rfl, rfl⟩
        | some b =>
          rw [hb] at h2
          rw [if_pos (show 1 ≤ s.cnt from Nat.pos_of_ne_zero fun h => nomatch h2.mp h)]
          exact .inl rfl
  · rw [if_neg hlen]
    refine .inr ⟨.many1, _, o, ?_, rfl⟩
    cases post with
    | nil => simp [indices, scan, caseO]
    | cons x tl =>
      have hx : ¬ u.isMatch x = true := fun hx => hlen (by have := hf x hx; simp only [blen_cons]; omega)
      simp [indices_cons, scan, testItem, check, hx, caseO]

/-! ## Units and combinators

Without a condition; matching only, since the combinators construct pairs, options and lists. -/

theorem parseL_once_empty (u : Neu ι) {post : List ι} (hd : dropB d o = some post) :
    parseL (β := β) G pol d (.once u .empty) o = match post with
      | [] => some (.err .once o)
      | x :: _ => if u.isMatch x then some (.ok ⟨o, Item.size x⟩ (o + Item.size x)) else some (.err .once o) := by
  obtain ⟨pre, hp, rfl⟩ := dropB_eq_some.mp hd
  cases post with
  | nil =>
    exact parses_iff.mp (((C23_once u .empty pre [] hp).2 _ _).mpr ⟨rfl, .inl ⟨rfl, rfl⟩⟩)
  | cons x tl =>
    by_cases hx : u.isMatch x = true
    · simp only [hx, if_true]
      exact parses_iff.mp (((C23_once u .empty pre _ hp).1 _ _).mpr
        ⟨x, tl, rfl, itemGives_empty.mpr hx, rfl, rfl⟩)
    · simp only [hx, if_false]
      exact parses_iff.mp (((C23_once u .empty pre _ hp).2 _ _).mpr
        ⟨rfl, .inr ⟨x, tl, rfl, .inl ⟨itemGives_empty.mpr (by simpa using hx), rfl⟩⟩⟩)

theorem optU_opt (u : Neu ι) : ActAlikeIn (β := β) Eq G none (.optU u .empty) (.opt (.once u .empty)) := by
  refine actIn_of_eq fun d o post hd => ?_
  rw [parseL_opt, matL_none, parseL_once_empty u hd]
  obtain ⟨pre, hp, rfl⟩ := dropB_eq_some.mp hd
  cases post with
  | nil =>
    simp only [caseR]
    exact parses_iff.mp (((C23_opt_unit u .empty pre [] hp).1 _ _).mpr (.inr ⟨by simp, rfl, rfl⟩))
  | cons x tl =>
    by_cases hx : u.isMatch x = true
    · simp only [hx, if_true, caseR]
      exact parses_iff.mp (((C23_opt_unit u .empty pre _ hp).1 _ _).mpr
        (.inl ⟨x, tl, rfl, itemGives_empty.mpr hx, rfl, rfl⟩))
    · simp only [hx, if_false, caseR]
      refine parses_iff.mp (((C23_opt_unit u .empty pre _ hp).1 _ _).mpr (.inr ⟨?_, rfl, rfl⟩))
      intro y tl' h
      cases h
      exact itemGives_empty.mpr (by simpa using hx)

theorem repL_once (u : Neu ι) (fin : Nat → Span → Nat → Option (Res Span)) (pre post : List ι) (hd : d = pre ++ post)
    (b n cnt : Nat) (hb : b + n = blen pre) :
    repL (matL (β := β) G none d) (.once u .empty) (fun _ => true) fin cnt ⟨b, n⟩ (blen pre) =
      fin (cnt + (post.takeWhile u.isMatch).length) ⟨b, n + blen (post.takeWhile u.isMatch)⟩
        (blen pre + blen (post.takeWhile u.isMatch)) := by
  induction post generalizing pre n cnt with
  | nil =>
    rw [repL_eq, matL_none, parseL_once_empty u (dropB_eq_some.mpr ⟨pre, hd, rfl⟩)]
    simp [caseR]
  | cons x tl ih =>
    rw [repL_eq, matL_none, parseL_once_empty u (dropB_eq_some.mpr ⟨pre, hd, rfl⟩)]
    by_cases hx : u.isMatch x = true
    · have := ih (pre ++ [x]) (by simp [hd]) (n + Item.size x) (cnt + 1) (by simp; omega)
      simp only [blen_append, blen_cons, blen_nil, Nat.add_zero] at this
      have ha : Span.addAssign ⟨b, n⟩ ⟨blen pre, Item.size x⟩ = some ⟨b, n + Item.size x⟩ := by
        simp only [Span.addAssign]
        rw [if_pos (by omega)]
        congr 2
        omega
      simp only [hx, if_true, caseR, addK, ha, this, List.takeWhile_cons, List.length_cons, blen_cons]
      rw [Nat.add_assoc cnt, Nat.add_comm 1, Nat.add_assoc, Nat.add_assoc]
    · simp [hx, caseR]

theorem many0_rep (u : Neu ι) :
    ActAlikeIn (β := β) Eq G none (.many0 u .empty) (.rep (.once u .empty) ⟨.unb, .unb⟩) := by
  refine actIn_of_eq fun d o post hd => ?_
  obtain ⟨pre, hp, rfl⟩ := dropB_eq_some.mp hd
  rw [parses_iff.mp ((C23_many0_takeWhile u pre post hp _).mpr rfl), parseL_rep,
    show CRange.more ⟨.unb, .unb⟩ = fun _ => true from rfl, repL_once u _ pre post hp _ 0 0 rfl]
  simp [finish, CRange.contains]

theorem many1_rep (u : Neu ι) :
    ActAlikeIn (β := β) AnyError G none (.many1 u .empty) (.rep (.once u .empty) ⟨.incl 1, .unb⟩) := by
  refine actIn_of_err fun d o post hd => ?_
  obtain ⟨pre, hp, rfl⟩ := dropB_eq_some.mp hd
  rw [parses_iff.mp ((C23_many1_takeWhile u pre post hp _).mpr rfl), parseL_rep,
    show CRange.more ⟨.incl 1, .unb⟩ = fun _ => true from rfl, repL_once u _ pre post hp _ 0 0 rfl]
  by_cases h : post.takeWhile u.isMatch = []
  · exact .inr ⟨.many1, .repeat_, blen pre, by rw [if_pos h], by simp [finish, CRange.contains, h]⟩
  · refine .inl ?_
    rw [if_neg h]
    simp [finish, CRange.contains, h, Nat.one_le_iff_ne_zero]

/-- At most so many items of a list. -/
def upTo (cap : Option Nat) (l : List ι) : List ι :=
  match cap with
  | none => l
  | some n => l.take n

theorem repL_once_upTo (u : Neu ι) (more : Nat → Bool) (cap : Option Nat)
    (hm : ∀ c, more c = true ↔ ∀ n, cap = some n → c < n) (fin : Nat → Span → Nat → Option (Res Span))
    (pre post : List ι) (hd : d = pre ++ post) (b n cnt : Nat) (hb : b + n = blen pre) :
    repL (matL (β := β) G none d) (.once u .empty) more fin cnt ⟨b, n⟩ (blen pre) =
      fin (cnt + (upTo (cap.map (· - cnt)) (post.takeWhile u.isMatch)).length)
        ⟨b, n + blen (upTo (cap.map (· - cnt)) (post.takeWhile u.isMatch))⟩
        (blen pre + blen (upTo (cap.map (· - cnt)) (post.takeWhile u.isMatch))) := by
  induction post generalizing pre n cnt with
  | nil =>
    rw [repL_eq, matL_none, parseL_once_empty u (dropB_eq_some.mpr ⟨pre, hd, rfl⟩)]
    cases cap <;> simp [caseR, upTo]
  | cons x tl ih =>
    rw [repL_eq, matL_none, parseL_once_empty u (dropB_eq_some.mpr ⟨pre, hd, rfl⟩)]
    by_cases hmo : more cnt = true
    · rw [if_pos hmo]
      have hcap := (hm cnt).mp hmo
      by_cases hx : u.isMatch x = true
      · have := ih (pre ++ [x]) (by simp [hd]) (n + Item.size x) (cnt + 1) (by simp; omega)
        simp only [blen_append, blen_cons, blen_nil, Nat.add_zero] at this
        have ha : Span.addAssign ⟨b, n⟩ ⟨blen pre, Item.size x⟩ = some ⟨b, n + Item.size x⟩ := by
          simp only [Span.addAssign]
          rw [if_pos (by omega)]
          congr 2
          omega
        have hu : upTo (cap.map (· - cnt)) ((x :: tl).takeWhile u.isMatch) =
            x :: upTo (cap.map (· - (cnt + 1))) (tl.takeWhile u.isMatch) := by
          rw [List.takeWhile_cons, if_pos hx]
          cases cap with
          | none => rfl
          | some m =>
            have := hcap m rfl
            show List.take (m - cnt) (x :: _) = x :: List.take (m - (cnt + 1)) _
            rw [show m - cnt = (m - (cnt + 1)) + 1 by omega, List.take_succ_cons]
        simp only [hx, if_true, caseR, addK, ha, this, hu, List.length_cons, blen_cons]
        rw [Nat.add_assoc cnt, Nat.add_comm 1, Nat.add_assoc, Nat.add_assoc]
      · have : upTo (cap.map (· - cnt)) ((x :: tl).takeWhile u.isMatch) = [] := by
          rw [List.takeWhile_cons, if_neg hx]; cases cap <;> simp [upTo]
        rw [this]
        simp [hx, caseR]
    · rw [if_neg hmo]
      have : upTo (cap.map (· - cnt)) ((x :: tl).takeWhile u.isMatch) = [] := by
        cases cap with
        | none => exact absurd ((hm cnt).mpr (by simp)) hmo
        | some m =>
          have : ¬ cnt < m := fun h => hmo ((hm cnt).mpr (by rintro _ ⟨⟩; exact h))
          simp [upTo, show m - cnt = 0 by omega]
      rw [this]
      simp

/-- The most items a range lets a loop take. -/
def CRange.cap (r : CRange) : Option Nat :=
  match r.hi with
  | .incl m => some m
  | .excl m => some (m - 1)
  | .unb => none

theorem cap_more (r : CRange) (c : Nat) : r.more c = true ↔ ∀ n, r.cap = some n → c < n := by
  unfold CRange.more CRange.cap
  cases r.hi <;> simp

theorem times_rep (r : CRange) (u : Neu ι) (hu : u.Fair) :
    ActAlikeIn (β := β) AnyError G none (.times r u .empty) (.rep (.once u .empty) r) := by
  refine actIn_of_err fun d o post hd => ?_
  obtain ⟨pre, hp, rfl⟩ := dropB_eq_some.mp hd
  have hv : Valid d (blen pre) := ⟨pre, post, hp, rfl⟩
  have hg := greedy_takeWhile (β := β) (G := G) (pol := none) u pre post hp r.cap
  have hg := (greedy_congr (Q := r.hi.allowsUpTo) (fun k => by
    rw [← more_iff, cap_more]
    exact ⟨fun h n hn => h n hn, fun h n hn => h n hn⟩)).mp hg
  obtain ⟨rest, hg⟩ : ∃ rest, GreedyRun (β := β) G none d (blen pre) u .empty r.hi.allowsUpTo
      (upTo r.cap (post.takeWhile u.isMatch)) rest := by
    revert hg
    cases r.cap <;> exact fun hg => ⟨_, hg⟩
  have h0 : r.cap.map (· - 0) = r.cap := by cases r.cap <;> rfl
  rw [parseL_rep, repL_once_upTo u r.more r.cap (cap_more r) _ pre post hp _ 0 0 rfl, h0]
  simp only [Nat.zero_add, finish]
  by_cases hc : r.contains (upTo r.cap (post.takeWhile u.isMatch)).length = true
  · refine .inl ?_
    rw [if_pos hc]
    obtain ⟨h1, h2⟩ := contains_iff.mp hc
    exact parses_iff.mp (((C24_times r u hu .empty _ hv).1 _ _).mpr ⟨_, _, hg, h1, h2, rfl, rfl⟩)
  · refine .inr ⟨_, _, _, parses_iff.mp ((C24_times r u hu .empty _ hv).2.1 _ _ hg
      (fun h => hc (contains_iff.mpr h))), by rw [if_neg hc]⟩

theorem between_rep (m n : Nat) (u : Neu ι) (hu : u.Fair) :
    ActAlikeIn (β := β) AnyError G none (.between m n u .empty) (.rep (.once u .empty) ⟨.incl m, .incl n⟩) := by
  refine actIn_of_err fun d o post hd => ?_
  obtain ⟨pre, hp, rfl⟩ := dropB_eq_some.mp hd
  rw [parses_iff.mp ((C24_between_takeWhile m n u hu pre post hp _).mpr rfl), parseL_rep,
    repL_once_upTo u _ (some n) (cap_more ⟨.incl m, .incl n⟩) _ pre post hp _ 0 0 rfl]
  simp only [Nat.zero_add, finish, Option.map_some, Nat.sub_zero, upTo]
  have hc : CRange.contains ⟨.incl m, .incl n⟩ ((post.takeWhile u.isMatch).take n).length =
      decide (m ≤ ((post.takeWhile u.isMatch).take n).length) := by
    simp only [CRange.contains]
    have : ((post.takeWhile u.isMatch).take n).length ≤ n := by simp; omega
    simp only [this, decide_true, Bool.and_true]
  rw [hc]
  by_cases h : m ≤ ((post.takeWhile u.isMatch).take n).length
  · refine .inl ?_
    simp only [h, decide_true, if_true]
  · refine .inr ⟨.between, .repeat_, blen pre, ?_, ?_⟩
    · rw [if_neg h]
    · simp only [h, decide_false, if_false]
      rfl

theorem thenU_thn (u v : Neu ι) (hu : u.Fair) (hv : v.Fair) :
    ActAlikeIn (β := β) AnyError G none (.thenU u v .empty) (.thn (.once u .empty) (.once v .empty)) := by
  refine actIn_of_err fun d o post hd => ?_
  rw [parseL_thenU, thenUParse, peek_eq hd, parseL_thn, seq2, matL_none, parseL_once_empty u hd]
  simp only [caseO, remK_eq hd]
  obtain ⟨pre, hp, rfl⟩ := dropB_eq_some.mp hd
  match post with
  | [] =>
    refine .inr ⟨.neureThen, _, _, ?_, rfl⟩
    simp [indices]
  | [x] =>
    refine .inr ⟨.neureThen, .once, blen pre, by simp [indices_cons, indices], ?_⟩
    by_cases hx : u.isMatch x = true
    · have : dropB d (blen pre + Item.size x) = some [] := dropB_eq_some.mpr ⟨pre ++ [x], by simp [hp], by simp⟩
      simp only [hx, if_true, caseR, matL_none, parseL_once_empty v this]
    · simp [hx, caseR]
  | x :: y :: tl =>
    by_cases hx : u.isMatch x = true
    · have hd' : dropB d (blen pre + Item.size x) = some (y :: tl) :=
        dropB_eq_some.mpr ⟨pre ++ [x], by simp [hp], by simp⟩
      simp only [hx, if_true, caseR, matL_none, parseL_once_empty v hd']
      by_cases hy : v.isMatch y = true
      · have h1 := hu x hx
        have h2 := hv y hy
        refine .inl ?_
        rw [if_pos (by simp only [blen_cons]; omega)]
        simp only [hy, if_true, indices_cons, testItem, check, hx, caseO, addK]
        have ha : Span.addAssign ⟨blen pre, Item.size x⟩ ⟨blen pre + Item.size x, Item.size y⟩ =
            some ⟨blen pre, Item.size x + Item.size y⟩ := by
          simp only [Span.addAssign]
          rw [if_pos (by omega)]
          congr 2
          omega
        rw [ha]
        cases tl <;> simp [indices, calcLength, spanK, newSpanInc, Nat.add_assoc]
      · refine .inr ⟨.neureThen, .once, blen pre, ?_, by simp [hy]⟩
        split
        · simp [indices_cons, testItem, check, hx, hy, caseO]
        · rfl
    · refine .inr ⟨.neureThen, .once, blen pre, ?_, by simp [hx, caseR]⟩
      split
      · simp [indices_cons, testItem, check, hx, caseO]
      · rfl

/-! ## The property theorems -/

/-- **C84 (unit methods, matching and constructing).** On positions of the input `opt` is
`between::<0, 1>` and `many0` is `repeat(..)`; but for the error reported, `once` is
`between::<1, 1>` and `many1` is `repeat(1..)`.  With any condition. -/
theorem C84_units (hpol : InsidePol G pol) (u : Neu ι) (c : Cond ι β)
    (hc : ∀ p ∈ [Pat.optU u c, .between 0 1 u c, .many0 u c, .times ⟨.unb, .unb⟩ u c, .once u c, .between 1 1 u c,
      .many1 u c, .times ⟨.incl 1, .unb⟩ u c], All G (Inside G pol) p) :
    WhollyAlikeIn Eq G H pol (.optU u c) (.between 0 1 u c) ∧
    WhollyAlikeIn Eq G H pol (.many0 u c) (.times ⟨.unb, .unb⟩ u c) ∧
    (u.Fair → WhollyAlikeIn AnyError G H pol (.once u c) (.between 1 1 u c)) ∧
    (u.Fair → WhollyAlikeIn AnyError G H pol (.many1 u c) (.times ⟨.incl 1, .unb⟩ u c)) :=
  ⟨leaf_build eq_equiv hpol (hc _ (by simp)) (hc _ (by simp)) trivial trivial (optU_between u c),
   leaf_build eq_equiv hpol (hc _ (by simp)) (hc _ (by simp)) trivial trivial (many0_times u c),
   fun hf => leaf_build anyError_equiv hpol (hc _ (by simp)) (hc _ (by simp)) trivial trivial (once_between u hf c),
   fun hf => leaf_build anyError_equiv hpol (hc _ (by simp)) (hc _ (by simp)) trivial trivial (many1_times u hf c)⟩

/-- **C84 (units and combinators).** On positions of the input, as matchers: a unit's `opt` and
`many0` are the combinators `opt` and `repeat(..)` of the unit's `once`; but for the error
reported `many1` is `repeat(1..)`, `repeat(range)` is the combinator of that name with the same
range, `between::<M, N>` is `repeat(M..=N)` and `then` is the combinator `then`. -/
theorem C84_unit_combinators (u v : Neu ι) :
    ActAlikeIn (β := β) Eq G none (.optU u .empty) (.opt (.once u .empty)) ∧
    ActAlikeIn (β := β) Eq G none (.many0 u .empty) (.rep (.once u .empty) ⟨.unb, .unb⟩) ∧
    ActAlikeIn (β := β) AnyError G none (.many1 u .empty) (.rep (.once u .empty) ⟨.incl 1, .unb⟩) ∧
    (∀ r, u.Fair → ActAlikeIn (β := β) AnyError G none (.times r u .empty) (.rep (.once u .empty) r)) ∧
    (∀ m n, u.Fair →
      ActAlikeIn (β := β) AnyError G none (.between m n u .empty) (.rep (.once u .empty) ⟨.incl m, .incl n⟩)) ∧
    (u.Fair → v.Fair →
      ActAlikeIn (β := β) AnyError G none (.thenU u v .empty) (.thn (.once u .empty) (.once v .empty))) :=
  ⟨optU_opt u, many0_rep u, many1_rep u, fun r hu => times_rep r u hu, fun m n hu => between_rep m n u hu,
    fun hu hv => thenU_thn u v hu hv⟩

/-- **C84 (units that ask for too much).** Without fairness the law fails: `!'💝'` asks for four
bytes per item, so `repeat(2..=2)` of the unit refuses `ab`, which the combinator takes. -/
theorem C84_unfair_unit_counterexample :
    ¬ (Neu.not (.item '💝')).Fair ∧
    ¬ ActAlikeIn (β := Nat) AnyError G0 none (.times ⟨.incl 2, .incl 2⟩ (.not (.item '💝')) .empty)
      (.rep (.once (.not (.item '💝')) .empty) ⟨.incl 2, .incl 2⟩) := by
  refine ⟨fun h => absurd (h 'a' (by decide)) (by decide), fun h => ?_⟩
  have h1 : Parses (G0 : Rules Char Nat) none ['a', 'b'] (.times ⟨.incl 2, .incl 2⟩ (.not (.item '💝')) .empty) 0
      (.err .times 0) := ⟨2, by decide⟩
  have h2 : Parses (G0 : Rules Char Nat) none ['a', 'b'] (.rep (.once (.not (.item '💝')) .empty) ⟨.incl 2, .incl 2⟩)
      0 (.ok ⟨0, 2⟩ 2) := ⟨4, by decide⟩
  obtain ⟨r', h3, h4⟩ := (h ['a', 'b'] 0 ⟨[], ['a', 'b'], rfl, rfl⟩).1 _ h1
  rw [parses_iff] at h2 h3
  rw [h2] at h3
  cases h3
  cases h4

/-- **C84 (units, off the input).** Off the positions of the input `opt` and `between::<0, 1>`
differ.  Inside a character `opt` finds nothing and succeeds, `between` reports an error; past the
end `opt` subtracts first and panics, `between` reports an error. -/
theorem C84_units_off_counterexample :
    (Parses (G0 : Rules Char Nat) none ['é'] (.optU (.item 'a') .empty) 1 (.ok ⟨1, 0⟩ 1) ∧
      ∃ e, Parses (G0 : Rules Char Nat) none ['é'] (.between 0 1 (.item 'a') .empty) 1 (.err e 1)) ∧
    (Parses (G0 : Rules Char Nat) none ['a'] (.optU (.item 'a') .empty) 2 .panic ∧
      ∃ e, Parses (G0 : Rules Char Nat) none ['a'] (.between 0 1 (.item 'a') .empty) 2 (.err e 2)) ∧
    ¬ ActAlike AnyError (G0 : Rules Char Nat) none (.optU (.item 'a') .empty)
      (.between 0 1 (.item 'a') .empty) := by
  have h1 : Parses (G0 : Rules Char Nat) none ['é'] (.optU (.item 'a') .empty) 1 (.ok ⟨1, 0⟩ 1) := ⟨2, by decide⟩
  have h2 : Parses (G0 : Rules Char Nat) none ['é'] (.between 0 1 (.item 'a') .empty) 1 (.err .outOfBound 1) :=
    ⟨2, by decide⟩
  refine ⟨⟨h1, _, h2⟩, ⟨⟨2, by decide⟩, .outOfBound, 2, by decide⟩, fun h => ?_⟩
  obtain ⟨r', h3, h4⟩ := (h _ _).1 _ h1
  rw [parses_iff] at h2 h3
  rw [h2] at h3
  cases h3
  cases h4

/-! Non-vacuity -/

/-- An optional sign and parentheses around more of the same, or `x`. -/
def signed (sign : Pat Char Nat) : Pat Char Nat :=
  .or (.thn sign (.thn (.lit ['(']) (.thn (.cell 0) (.lit [')'])))) (.lit ['x'])

def GSigned (sign : Pat Char Nat) : Rules Char Nat := fun i => if i = 0 then some (signed sign) else none

theorem signed_inside (G : Rules Char Nat) (s sign : Pat Char Nat) (hG : G = GSigned s)
    (h : sign = .optU (.item '-') .empty ∨ sign = .between 0 1 (.item '-') .empty)
    (hs : s = .optU (.item '-') .empty ∨ s = .between 0 1 (.item '-') .empty) :
    ∀ q, (q = signed sign ∨ q = signed s ∨ q = .thn sign (.thn (.lit ['(']) (.thn (.cell 0) (.lit [')']))) ∨
      q = .thn s (.thn (.lit ['(']) (.thn (.cell 0) (.lit [')']))) ∨
      q = .thn (.lit ['(']) (.thn (.cell 0) (.lit [')'])) ∨ q = .thn (.cell 0) (.lit [')']) ∨ q = .cell 0 ∨
      q = sign ∨ q = s ∨ q = .lit ['('] ∨ q = .lit [')'] ∨ q = .lit ['x']) → All G (Inside G none) q := by
  intro q hq
  refine All.coind (fun q => q = signed sign ∨ q = signed s ∨
      q = .thn sign (.thn (.lit ['(']) (.thn (.cell 0) (.lit [')']))) ∨
      q = .thn s (.thn (.lit ['(']) (.thn (.cell 0) (.lit [')']))) ∨
      q = .thn (.lit ['(']) (.thn (.cell 0) (.lit [')'])) ∨ q = .thn (.cell 0) (.lit [')']) ∨ q = .cell 0 ∨
      q = sign ∨ q = s ∨ q = .lit ['('] ∨ q = .lit [')'] ∨ q = .lit ['x']) hq ?_ ?_
  · subst hG
    rcases h with rfl | rfl <;> rcases hs with rfl | rfl <;>
    rintro _ (rfl | rfl | rfl | rfl | rfl | rfl | rfl | rfl | rfl | rfl | rfl | rfl) <;> exact ⟨trivial, trivial⟩
  · subst hG
    rcases h with rfl | rfl <;> rcases hs with rfl | rfl <;>
    rintro _ q (rfl | rfl | rfl | rfl | rfl | rfl | rfl | rfl | rfl | rfl | rfl | rfl) hc <;> cases hc <;>
      simp_all [GSigned, signed]

example (d : List Char) (o : Nat) (ho : Valid d o) (st : Unit) (H : Handler Char Nat Unit) (r : CRes Unit (Val Nat)) :
    Constructs (GSigned (.optU (.item '-') .empty)) H none d (.cell 0) st o r →
      ∃ r', Constructs (GSigned (.between 0 1 (.item '-') .empty)) H none d (.cell 0) st o r' ∧ SameCRes Eq r r' := by
  have law (s : Pat Char Nat) (hs : s = .optU (.item '-') .empty ∨ s = .between 0 1 (.item '-') .empty) :
      WhollyAlikeIn Eq (GSigned s) H none (signed (.optU (.item '-') .empty))
        (signed (.between 0 1 (.item '-') .empty)) := by
    have i1 := signed_inside _ s _ rfl (.inl rfl) hs
    have i2 := signed_inside _ s _ rfl (.inr rfl) hs
    have hp : InsidePol (GSigned s) none := fun q hq => nomatch hq
    have l := leaf_build (H := H) (p := .optU (.item '-') .empty) (p' := .between 0 1 (.item '-') .empty) eq_equiv hp
      (i1 _ (by simp)) (i2 _ (by simp)) trivial trivial
      (optU_between (.item '-') .empty)
    have rf := (C84_in_equivalence (G := GSigned s) (H := H) (pol := none) eq_equiv).refl
    exact C84_in_anywhere_build eq_equiv hp (i1 _ (by simp)) (i2 _ (by simp))
      (.or (C84_in_anywhere_build eq_equiv hp (i1 _ (by simp)) (i2 _ (by simp)) (.thn l (rf _))) (rf _))
  have rb {S : Pat Char Nat → Pat Char Nat → Prop}
      (h : S (signed (.optU (.item '-') .empty)) (signed (.between 0 1 (.item '-') .empty))) :
      RuleByRule S (GSigned (.optU (.item '-') .empty)) (GSigned (.between 0 1 (.item '-') .empty)) := by
    intro i
    by_cases hi : i = 0
    · exact .inr ⟨_, _, if_pos hi, if_pos hi, h⟩
    · exact .inl ⟨if_neg hi, if_neg hi⟩
  exact (C84_in_rules_build eq_equiv (rb (law _ (.inl rfl)).1) (rb (law _ (.inl rfl))) (rb (law _ (.inr rfl)).1)
    (rb (law _ (.inr rfl))) (fun q hq => nomatch hq) (fun q hq => nomatch hq)
    (signed_inside _ _ _ rfl (.inl rfl) (.inl rfl) _ (by simp))
    (signed_inside _ _ _ rfl (.inl rfl) (.inr rfl) _ (by simp)) ho).1 r

example : Parses (GSigned (.optU (.item '-') .empty)) none ['-', '(', '(', 'x', ')', ')'] (.cell 0) 0 (.ok ⟨0, 6⟩ 6) ∧
    Parses (GSigned (.between 0 1 (.item '-') .empty)) none ['-', '(', '(', 'x', ')', ')'] (.cell 0) 0
      (.ok ⟨0, 6⟩ 6) :=
  ⟨⟨20, by decide⟩, ⟨20, by decide⟩⟩

example : Parses (G0 : Rules Char Nat) none ['a', 'a', 'b'] (.many1 (.item 'a') .empty) 0 (.ok ⟨0, 2⟩ 2) ∧
    Parses (G0 : Rules Char Nat) none ['a', 'a', 'b'] (.rep (.once (.item 'a') .empty) ⟨.incl 1, .unb⟩) 0 (.ok ⟨0, 2⟩ 2) ∧
    (Neu.item 'a').Fair :=
  ⟨⟨4, by decide⟩, ⟨9, by decide⟩, by intro x hx; simp [Neu.isMatch] at hx; subst hx; decide⟩

/-- Two or three digits: the unit's `repeat(2..4)` and the combinator. -/
example : (Neu.range (ι := Char) ⟨.incl 48, .incl 57⟩).Fair ∧
    Runs (G0 : Rules Char Nat) none ['1', '2', '3', '4'] (.times ⟨.incl 2, .excl 4⟩ (.range ⟨.incl 48, .incl 57⟩) .empty) 0
      (.ok ⟨0, 3⟩ 3) ∧
    Runs (G0 : Rules Char Nat) none ['1', '2', '3', '4']
      (.rep (.once (.range ⟨.incl 48, .incl 57⟩) .empty) ⟨.incl 2, .excl 4⟩) 0 (.ok ⟨0, 3⟩ 3) :=
  ⟨C24_fair _ (.inl (by simp [Neu.Plain])), ⟨2, by decide⟩, ⟨5, by decide⟩⟩

end Neure
