import Verif.Settled
import Verif.DataLemmas
import Verif.Inv
import Verif.Den
import Verif.PropsLayers
/-!
# Lemmas for C88
-/

namespace Neure

set_option linter.unusedSectionVars false
set_option linter.unusedSimpArgs false

variable {ι β σ : Type} [Item ι] {G : Rules ι β}

/-! ## The text made longer -/

theorem dropB_more {d rest : List ι} {o : Nat} (h : dropB d o = some rest) (x : List ι) :
    dropB (d ++ x) o = some (rest ++ x) := by
  obtain ⟨pre, rfl, hb⟩ := dropB_eq_some.mp h
  exact dropB_eq_some.mpr ⟨pre, by simp, hb⟩

theorem peek_at {d rest : List ι} {o : Nat} (h : dropB d o = some rest) : peek d o = .ok (indices 0 rest) :=
  peek_ok.mpr ⟨rest, h, rfl⟩

theorem remK_at {γ : Type} {d rest : List ι} {o : Nat} (h : dropB d o = some rest) (k : Nat → Option (Res γ)) :
    remK d o k = k (blen rest) := by
  have := dropB_len h
  unfold remK
  rw [if_pos (by omega), show blen d - o = blen rest by omega]

section Unit
variable {mt mt' : List ι → Pat ι β → Nat → Option (Res Span)} {x : List ι}
  (hmt : ∀ d p o, Le (mt d p o) (mt' (d ++ x) p o)) {d rest : List ι} {o : Nat}
  (hd : dropB d o = some rest) {u : Neu ι} {c : Cond ι β} (hq : c.Quiet d o)
include hmt hd hq

theorem testItem_more {pr : Nat × ι} (hpr : pr ∈ indices 0 rest) :
    Le (testItem mt d o u c pr) (testItem mt' (d ++ x) o u c pr) := by
  unfold testItem
  refine ite_le ?_ (Le.refl _)
  cases c with
  | empty => exact Le.refl _
  | fn f => simp only [check]; rw [hq pr x]; exact Le.refl _
  | regex p =>
    obtain ⟨a, b, h1, h2⟩ := mem_indices hpr
    have h3 : dropB d (o + pr.1) = some (pr.2 :: b) := by
      rw [dropB_add hd, h1, h2, Nat.zero_add]; exact dropB_append _ _
    simp only [check]
    rw [origAt_ok.mpr h3, origAt_ok.mpr (dropB_more h3 x)]
    intro v hv
    dsimp only at hv ⊢
    cases hm : mt (pr.2 :: b) p 0 with
    | none => rw [hm] at hv; cases hv
    | some w => rw [hm] at hv; rw [hmt _ _ _ w hm]; exact hv

end Unit

/-- The outcome of a scan with more items left. -/
def withRest (it2 : List (Nat × ι)) : Out (Scan ι) → Out (Scan ι)
  | .ok s => .ok { s with rest := s.rest ++ it2 }
  | .err e => .err e
  | .panic => .panic

/-- A scan that did not stop at the end of the text stops at the same place in a longer text. -/
theorem scan_more {t t' : Nat × ι → Option (Out Bool)} {more : Nat → Bool} (it it2 : List (Nat × ι))
    (h : ∀ pr ∈ it, Le (t pr) (t' pr)) (cnt : Nat) (beg : Option Nat) (r : Out (Scan ι))
    (hr : scan t more cnt beg it = some r) (he : ∀ s, r = .ok s → s.Ended more) :
    scan t' more cnt beg (it ++ it2) = some (withRest it2 r) := by
  induction it generalizing cnt beg with
  | nil =>
    simp only [scan, Option.some.injEq] at hr
    subst hr
    have := he _ rfl
    simp only [Scan.Ended, ne_eq, not_true_eq_false, false_or] at this
    cases it2 with
    | nil => simp [scan, withRest]
    | cons pr it2 => simp [scan, this, withRest]
  | cons pr it ih =>
    simp only [scan, List.cons_append] at hr ⊢
    split at hr
    · rename_i hm
      rw [if_pos hm]
      cases ht : t pr with
      | none => rw [ht] at hr; cases hr
      | some v =>
        rw [ht] at hr
        rw [h pr (by simp) v ht]
        rcases v with b | e | _
        · cases b
          · simp only [Option.some.injEq] at hr ⊢; subst hr; rfl
          · exact ih (fun q hq => h q (by simp [hq])) _ _ hr
        · simp only [Option.some.injEq] at hr ⊢; subst hr; rfl
        · simp only [Option.some.injEq] at hr ⊢; subst hr; rfl
    · rename_i hm
      rw [if_neg hm]
      simp only [Option.some.injEq] at hr ⊢; subst hr; rfl

/-- The length computed after it is the same. -/
theorem calcLength_more {t : Nat × ι → Option (Out Bool)} {more : Nat → Bool} {rest x : List ι} {s : Scan ι}
    (h : scan t more 0 none (indices 0 rest) = some (.ok s)) :
    calcLength s.beg (s.stop.or ((s.rest ++ indices (blen rest) x).head?.map (·.1))) (blen (rest ++ x)) =
      calcLength s.beg (s.stop.or (s.rest.head?.map (·.1))) (blen rest) := by
  obtain ⟨run, tl, hp⟩ := scan_ok h
  cases hs : s.stop with
  | some k => cases s.beg <;> rfl
  | none =>
    cases hr : s.rest with
    | cons pr l => cases s.beg <;> rfl
    | nil =>
      cases x with
      | nil => simp
      | cons a x => cases s.beg <;> simp [calcLength]

section Leaves
variable {mt mt' : List ι → Pat ι β → Nat → Option (Res Span)} {x : List ι}
  (hmt : ∀ d p o, Le (mt d p o) (mt' (d ++ x) p o)) {d : List ι} {o : Nat} {u v : Neu ι} {c : Cond ι β}
include hmt

theorem once_more {a : ι} {rest : List ι} (hd : dropB d o = some (a :: rest)) (hq : c.Quiet d o) :
    Le (onceParse mt d u c o) (onceParse mt' (d ++ x) u c o) := by
  unfold onceParse
  rw [peek_at hd, peek_at (dropB_more hd x)]
  simp only [caseO, remK_at hd, remK_at (dropB_more hd x), List.cons_append, indices_cons]
  refine caseO_le (testItem_more hmt hd hq (by simp)) (fun b => ite_le ?_ (Le.refl _)) (fun _ => Le.refl _)
  cases rest with
  | nil => cases x <;> simp [calcLength, Le.refl]
  | cons b rest => exact Le.refl _

theorem optU_more {a : ι} {rest : List ι} (hd : dropB d o = some (a :: rest)) (hq : c.Quiet d o) :
    Le (optUParse mt d u c o) (optUParse mt' (d ++ x) u c o) := by
  unfold optUParse
  simp only [remK_at hd, remK_at (dropB_more hd x)]
  rw [peek_at hd, peek_at (dropB_more hd x)]
  simp only [caseO, List.cons_append, indices_cons]
  refine caseO_le (testItem_more hmt hd hq (by simp)) (fun b => ite_le ?_ (Le.refl _)) (fun _ => Le.refl _)
  cases rest with
  | nil => cases x <;> simp [calcLength, Le.refl]
  | cons b rest => exact Le.refl _

/-- A step after a scan: what follows may depend on the scan as a whole. -/
theorem scan_case {rest : List ι} (hd : dropB d o = some rest) (hq : c.Quiet d o) {more : Nat → Bool}
    (he : ∀ s, scan (testItem mt d o u c) more 0 none (indices 0 rest) = some (.ok s) → s.Ended more)
    {k k' : Scan ι → Option (Res Span)} {e : Error → Option (Res Span)}
    (hk : ∀ s, scan (testItem mt d o u c) more 0 none (indices 0 rest) = some (.ok s) → s.Ended more →
      Le (k s) (k' { s with rest := s.rest ++ indices (blen rest) x })) :
    Le (caseO (scan (testItem mt d o u c) more 0 none (indices 0 rest)) k e)
      (caseO (scan (testItem mt' (d ++ x) o u c) more 0 none (indices 0 (rest ++ x))) k' e) := by
  intro r hr
  cases hs : scan (testItem mt d o u c) more 0 none (indices 0 rest) with
  | none => rw [hs] at hr; cases hr
  | some y =>
    have := scan_more (t' := testItem mt' (d ++ x) o u c) (more := more) (indices 0 rest) (indices (blen rest) x)
      (fun pr hpr => testItem_more hmt hd hq hpr) 0 none y hs (fun s h => he s (by rw [hs, h]))
    rw [indices_append, Nat.zero_add, this]
    rw [hs] at hr
    cases y with
    | ok s => exact hk s hs (he s hs) r hr
    | err e => exact hr
    | panic => exact hr

theorem many0_more {rest : List ι} (hd : dropB d o = some rest) (hq : c.Quiet d o)
    (he : ∀ s, scan (testItem mt d o u c) (fun _ => true) 0 none (indices 0 rest) = some (.ok s) →
      s.Ended fun _ => true) :
    Le (many0Parse mt d u c o) (many0Parse mt' (d ++ x) u c o) := by
  unfold many0Parse
  simp only [remK_at hd, remK_at (dropB_more hd x)]
  rw [peek_at hd, peek_at (dropB_more hd x)]
  refine scan_case hmt hd hq he (fun s hs hen => ?_)
  cases hb : s.beg with
  | none => exact Le.refl _
  | some b =>
    rcases hen with h | h
    · obtain ⟨k, hk⟩ := Option.ne_none_iff_exists'.mp h
      simp only [hb, hk]; exact Le.refl _
    · cases h

theorem many1_more {rest : List ι} (hd : dropB d o = some rest) (hq : c.Quiet d o)
    (he : ∀ s, scan (testItem mt d o u c) (fun _ => true) 0 none (indices 0 rest) = some (.ok s) →
      s.Ended fun _ => true) :
    Le (many1Parse mt d u c o) (many1Parse mt' (d ++ x) u c o) := by
  unfold many1Parse
  rw [peek_at hd, peek_at (dropB_more hd x)]
  simp only [caseO, remK_at hd, remK_at (dropB_more hd x)]
  refine scan_case hmt hd hq he (fun s hs hen => ?_)
  cases hb : s.beg with
  | none => exact Le.refl _
  | some b =>
    rcases hen with h | h
    · obtain ⟨k, hk⟩ := Option.ne_none_iff_exists'.mp h
      simp only [hb, hk]; exact Le.refl _
    · cases h

/-- `between` and `times`. -/
theorem count_more {rest : List ι} (hd : dropB d o = some rest) (hq : c.Quiet d o) {more ok : Nat → Bool}
    {need : Nat} {e : Error}
    (he : (need ≤ blen rest ∧ ∀ s, scan (testItem mt d o u c) more 0 none (indices 0 rest) = some (.ok s) →
        s.Ended more) ∨
      ∃ s, scan (testItem mt d o u c) more 0 none (indices 0 rest) = some (.ok s) ∧ s.Ended more ∧ ok s.cnt = false) :
    Le (if blen rest ≥ need then
          caseO (scan (testItem mt d o u c) more 0 none (indices 0 rest))
            (fun s => if ok s.cnt = true then
              spanK o (calcLength s.beg (s.stop.or (s.rest.head?.map (·.1))) (blen rest))
              else some (.err e o)) (fun e => some (.err e o))
        else some (.err e o))
      (if blen (rest ++ x) ≥ need then
          caseO (scan (testItem mt' (d ++ x) o u c) more 0 none (indices 0 (rest ++ x)))
            (fun s => if ok s.cnt = true then
              spanK o (calcLength s.beg (s.stop.or (s.rest.head?.map (·.1))) (blen (rest ++ x)))
              else some (.err e o)) (fun e => some (.err e o))
        else some (.err e o)) := by
  have key : ∀ (he' : ∀ s, scan (testItem mt d o u c) more 0 none (indices 0 rest) = some (.ok s) → s.Ended more),
      Le (caseO (scan (testItem mt d o u c) more 0 none (indices 0 rest))
            (fun s => if ok s.cnt = true then
              spanK o (calcLength s.beg (s.stop.or (s.rest.head?.map (·.1))) (blen rest))
              else some (.err e o)) (fun e => some (.err e o)))
        (caseO (scan (testItem mt' (d ++ x) o u c) more 0 none (indices 0 (rest ++ x)))
            (fun s => if ok s.cnt = true then
              spanK o (calcLength s.beg (s.stop.or (s.rest.head?.map (·.1))) (blen (rest ++ x)))
              else some (.err e o)) (fun e => some (.err e o))) := by
    intro he'
    refine scan_case hmt hd hq he' (fun s hs hen => ?_)
    simp only
    rw [calcLength_more hs]
    exact Le.refl _
  rcases he with ⟨h1, h2⟩ | ⟨s, h1, h2, h3⟩
  · rw [if_pos h1, if_pos (by simp only [blen_append]; omega)]
    exact key h2
  · have he' : ∀ s, scan (testItem mt d o u c) more 0 none (indices 0 rest) = some (.ok s) → s.Ended more := by
      intro s' hs'; rw [h1] at hs'; cases hs'; exact h2
    have hbig : Le (some (.err e o)) (if blen (rest ++ x) ≥ need then
          caseO (scan (testItem mt' (d ++ x) o u c) more 0 none (indices 0 (rest ++ x)))
            (fun s => if ok s.cnt = true then
              spanK o (calcLength s.beg (s.stop.or (s.rest.head?.map (·.1))) (blen (rest ++ x)))
              else some (.err e o)) (fun e => some (.err e o))
        else some (.err e o)) := by
      split
      · have := key he'
        rw [h1] at this
        simp only [caseO, h3, Bool.false_eq_true, if_false] at this
        exact this
      · exact Le.refl _
    split
    · rw [h1]; simp only [caseO, h3, Bool.false_eq_true, if_false]; exact hbig
    · exact hbig

theorem thenU_more (hq : c.Quiet d o)
    (h : (∃ a b rest, dropB d o = some (a :: b :: rest) ∧
          (u.minLength + v.minLength ≤ blen (a :: b :: rest) ∨
            testItem mt d o u c (0, a) = some (.ok true) ∧
              testItem mt d o v c (Item.size a, b) = some (.ok false))) ∨
        ∃ a rest, dropB d o = some (a :: rest) ∧ testItem mt d o u c (0, a) = some (.ok false)) :
    Le (thenUParse mt d u v c o) (thenUParse mt' (d ++ x) u v c o) := by
  rcases h with ⟨a, b, rest, hd, h⟩ | ⟨a, rest, hd, h⟩
  · have hu := testItem_more (u := u) hmt hd hq (pr := (0, a)) (by simp)
    have hv := testItem_more (u := v) hmt hd hq (pr := (Item.size a, b)) (by simp)
    unfold thenUParse
    rw [peek_at hd, peek_at (dropB_more hd x)]
    simp only [caseO, remK_at hd, remK_at (dropB_more hd x), List.cons_append, indices_cons, Nat.zero_add]
    have hlen : blen (a :: b :: rest) ≤ blen (a :: b :: (rest ++ x)) := by simp
    have inner : Le
        (caseO (testItem mt d o u c (0, a))
          (fun b_1 => if b_1 = true then
            caseO (testItem mt d o v c (Item.size a, b))
              (fun b' => if b' = true then
                spanK o (calcLength (some 0) ((indices (Item.size a + Item.size b) rest).head?.map (·.1))
                  (blen (a :: b :: rest))) else some (.err .neureThen o))
              (fun e => some (.err e o)) else some (.err .neureThen o))
          (fun e => some (.err e o)))
        (caseO (testItem mt' (d ++ x) o u c (0, a))
          (fun b_1 => if b_1 = true then
            caseO (testItem mt' (d ++ x) o v c (Item.size a, b))
              (fun b' => if b' = true then
                spanK o (calcLength (some 0) ((indices (Item.size a + Item.size b) (rest ++ x)).head?.map (·.1))
                  (blen (a :: b :: (rest ++ x)))) else some (.err .neureThen o))
              (fun e => some (.err e o)) else some (.err .neureThen o))
          (fun e => some (.err e o))) := by
      refine caseO_le hu (fun b1 => ite_le (caseO_le hv (fun b2 => ite_le ?_ (Le.refl _)) (fun _ => Le.refl _))
        (Le.refl _)) (fun _ => Le.refl _)
      cases rest with
      | nil =>
        cases x with
        | nil => exact Le.refl _
        | cons y x => simp [calcLength, Le.refl]
      | cons y rest => exact Le.refl _
    rcases h with h | ⟨h1, h2⟩
    · rw [if_pos h, if_pos (by omega)]; exact inner
    · have h1' := hu _ h1
      have h2' := hv _ h2
      split
      · rw [if_pos (by omega)]; exact inner
      · split
        · rw [h1', h2']; simp only [caseO, if_true, Bool.false_eq_true, if_false]; exact Le.refl _
        · exact Le.refl _
  · have hu := testItem_more (u := u) hmt hd hq (pr := (0, a)) (by simp) _ h
    have L : thenUParse mt d u v c o = some (.err .neureThen o) := by
      unfold thenUParse
      rw [peek_at hd]
      simp only [caseO, remK_at hd, indices_cons]
      split
      · cases rest with
        | nil => rfl
        | cons b rest => simp [h, caseO]
      · rfl
    have R : thenUParse mt' (d ++ x) u v c o = some (.err .neureThen o) := by
      unfold thenUParse
      rw [peek_at (dropB_more hd x)]
      simp only [caseO, remK_at (dropB_more hd x), List.cons_append, indices_cons]
      split
      · cases hr : rest ++ x with
        | nil => rfl
        | cons b rest => simp [hu, caseO]
      · rfl
    rw [L, R]; exact Le.refl _

end Leaves

theorem lit_more {d rest l : List ι} {o : Nat} (x : List ι) (hd : dropB d o = some rest)
    (h : l <+: rest ∨ ¬ rest <+: l) : litParse (d ++ x) l o = litParse d l o := by
  have hp : l.isPrefixOf rest = true ↔ l <+: rest := List.isPrefixOf_iff_prefix
  have hpx : l.isPrefixOf (rest ++ x) = true ↔ l <+: rest ++ x := List.isPrefixOf_iff_prefix
  unfold litParse
  simp only [remK_at hd, remK_at (dropB_more hd x), caseO, origAt_ok.mpr hd, origAt_ok.mpr (dropB_more hd x)]
  by_cases h1 : l <+: rest
  · obtain ⟨t, rfl⟩ := h1
    have e1 : l.isPrefixOf (l ++ t) = true := List.isPrefixOf_iff_prefix.mpr ⟨t, rfl⟩
    have e2 : l.isPrefixOf (l ++ t ++ x) = true := List.isPrefixOf_iff_prefix.mpr ⟨t ++ x, by simp⟩
    rw [e1, e2]
    have l1 : blen l ≤ blen (l ++ t) := by simp
    have l2 : blen l ≤ blen (l ++ t ++ x) := by simp only [blen_append]; omega
    rw [if_pos l1, if_pos l2]
  · have h2 : ¬ rest <+: l := h.resolve_left h1
    have h3 : ¬ l <+: rest ++ x := by
      intro h3
      rcases List.prefix_or_prefix_of_prefix h3 (List.prefix_append rest x) with h | h
      · exact h1 h
      · exact h2 h
    have e1 : l.isPrefixOf rest = false := by
      cases he : l.isPrefixOf rest with
      | false => rfl
      | true => exact absurd (hp.mp he) h1
    have e2 : l.isPrefixOf (rest ++ x) = false := by
      cases he : l.isPrefixOf (rest ++ x) with
      | false => rfl
      | true => exact absurd (hpx.mp he) h3
    simp only [e1, e2, Bool.false_eq_true, if_false, ite_self]

/-! ## All patterns -/

theorem step_more {mt mt' : List ι → Pat ι β → Nat → Option (Res Span)} {pr pr' : Pat ι β → Nat → Option (Res Span)}
    {x : List ι} (hmt : ∀ d p o, Le (mt d p o) (mt' (d ++ x) p o)) {d : List ι} (hpr : ∀ p o, Le (pr p o) (pr' p o))
    (n : Nat) {p : Pat ι β} {o : Nat} (h : Done mt d o p) :
    Le (step G n mt pr d p o) (step G (n + 1) mt' pr' (d ++ x) p o) := by
  have comb : ∀ q : Pat ι β, Le (step G n (fun _ => mt d) pr [] q o) (step G (n + 1) (fun _ => mt' (d ++ x)) pr' [] q o) :=
    fun q => step_le (fun _ => hmt d) hpr n [] q o
  cases p with
  | empty => exact comb .empty
  | fail => exact comb .fail
  | start => exact comb .start
  | anchorEnd =>
    replace h : o < blen d := h
    simp only [step, blen_append]
    rw [if_neg (by omega), if_neg (by omega)]; exact Le.refl _
  | consume k =>
    replace h : o + k ≤ blen d := h
    simp only [step, consumeParse, remK, blen_append]
    rw [if_pos (by omega), if_pos (by omega), if_pos (by omega), if_pos (by omega)]
    exact Le.refl _
  | consumeAll => exact h.elim
  | lit l =>
    obtain ⟨rest, hd, h⟩ := h
    simp only [step]; rw [lit_more x hd h]; exact Le.refl _
  | native f => simp only [step]; rw [show f (d ++ x) o = f d o from h x]; exact Le.refl _
  | once u c => obtain ⟨hq, a, rest, hd⟩ := h; exact once_more hmt hd hq
  | optU u c => obtain ⟨hq, a, rest, hd⟩ := h; exact optU_more hmt hd hq
  | many0 u c => obtain ⟨hq, rest, hd, he⟩ := h; exact many0_more hmt hd hq he
  | many1 u c => obtain ⟨hq, rest, hd, he⟩ := h; exact many1_more hmt hd hq he
  | between m k u c =>
    obtain ⟨hq, rest, hd, he⟩ := h
    simp only [step, betweenParse]
    rw [peek_at hd, peek_at (dropB_more hd x)]
    simp only [caseO, remK_at hd, remK_at (dropB_more hd x)]
    have := count_more (u := u) (ok := fun c => decide (c ≥ m)) (e := .between) hmt hd hq
      (he.imp_right fun ⟨s, h1, h2, h3⟩ => ⟨s, h1, h2, by simpa using h3⟩)
    simp only [decide_eq_true_eq] at this
    exact this
  | times r u c =>
    obtain ⟨hq, rest, hd, he⟩ := h
    simp only [step, timesParse]
    rw [peek_at hd, peek_at (dropB_more hd x)]
    simp only [caseO, remK_at hd, remK_at (dropB_more hd x)]
    exact count_more (u := u) (ok := r.contains) (e := .times) hmt hd hq he
  | thenU u v c => obtain ⟨hq, h⟩ := h; exact thenU_more hmt hq h
  | assert q value => exact comb (.assert q value)
  | thn a b => exact comb (.thn a b)
  | ifThen a t b => exact comb (.ifThen a t b)
  | pre a b => exact comb (.pre a b)
  | suf a b => exact comb (.suf a b)
  | enclose a b c => exact comb (.enclose a b c)
  | sepOnce a b c => exact comb (.sepOnce a b c)
  | or a b => exact comb (.or a b)
  | longest a b => exact comb (.longest a b)
  | opt q => exact comb (.opt q)
  | choice e items => exact comb (.choice e items)
  | ltm e items => exact comb (.ltm e items)
  | rep q r => exact comb (.rep q r)
  | rep2 q m k => exact comb (.rep2 q m k)
  | collect q min => exact comb (.collect q min)
  | sep q s skip min => exact comb (.sep q s skip min)
  | sep2 q s skip m k => exact comb (.sep2 q s skip m k)
  | sepCollect q s skip min => exact comb (.sepCollect q s skip min)
  | branch t a b =>
    have := comb (.branch (fun _ _ => t d o) a b)
    simp only [step] at this ⊢
    rw [show t (d ++ x) o = t d o from h x]; exact this
  | map q f => exact comb (.map q f)
  | pat q => exact comb (.pat q)
  | build q f =>
    simp only [step]
    intro r hr
    cases hm : mt d q o with
    | none => rw [hm] at hr; cases hr
    | some w =>
      rw [hmt _ _ _ w hm]
      rw [hm] at hr
      cases w with
      | ok s o1 =>
        simp only [caseR] at hr ⊢
        rw [h s o1 hm x]
        cases hf : f d o1 s with
        | ok p' o2 =>
          rw [hf] at hr
          exact caseR_le (hmt d p' o2) (fun _ _ => Le.refl _) (fun _ _ => Le.refl _) r hr
        | err e o2 => rw [hf] at hr; exact hr
        | panic => rw [hf] at hr; exact hr
      | err e o1 => exact hr
      | panic => exact hr
  | dthen q f => exact Le.refl _
  | cell i => exact comb (.cell i)

theorem parseS_more (n : Nat) (pol : Option (Pat ι β)) (d x : List ι) (p : Pat ι β) (o : Nat) :
    Le (parseS G n pol d p o) (parse G (n + 1) pol (d ++ x) p o) := by
  induction n generalizing pol d p o with
  | zero => exact Le.none _
  | succ n ih =>
    intro r hr
    simp only [parseS] at hr
    split at hr
    · rename_i h
      refine step_more (mt' := matWith (parse G (n + 1)) pol) (pr' := parse G (n + 1) pol (d ++ x)) (x := x)
        (fun d p o => ?_) (fun p o => ih pol d p o) n h r hr
      cases pol with
      | none => exact ih none d p o
      | some q => exact caseR_le (ih none d q o) (fun _ o' => ih _ d p o') (fun _ _ => Le.refl _)
    · cases hr

theorem matS_more (n : Nat) (pol : Option (Pat ι β)) (d x : List ι) (p : Pat ι β) (o : Nat) :
    Le (matWith (parseS G n) pol d p o) (tryMat G (n + 1) pol (d ++ x) p o) := by
  cases pol with
  | none => exact parseS_more n none d x p o
  | some q =>
    exact caseR_le (parseS_more n none d x q o) (fun _ o' => parseS_more n _ d x p o') (fun _ _ => Le.refl _)

end Neure
