import Verif.UnitLemmas
import Verif.LoopLemmas
import Verif.Demo
/-!
# C22–C26: units and unit patterns
-/

namespace Neure

set_option linter.unusedSectionVars false
set_option linter.unusedSimpArgs false

open Demo

variable {ι β : Type} [Item ι] {G : Rules ι β} {pol : Option (Pat ι β)} {d : List ι}

/-! ## C22 -/

/-- **C22.** The unit operators are complement, intersection and union of the
accepted items; literal units accept exactly their item, collections exactly
their members, ranges exactly the items between their bounds. -/
theorem C22_unit_operators (u v : Neu ι) (x : ι) :
    ((Neu.not u).isMatch x = true ↔ ¬ u.isMatch x = true) ∧
    ((Neu.and u v).isMatch x = true ↔ u.isMatch x = true ∧ v.isMatch x = true) ∧
    ((Neu.or u v).isMatch x = true ↔ u.isMatch x = true ∨ v.isMatch x = true) ∧
    (∀ a, (Neu.item a).isMatch x = true ↔ x = a) ∧
    (∀ a, (Neu.equal a).isMatch x = true ↔ x = a) ∧
    (∀ l, (Neu.mem l).isMatch x = true ↔ x ∈ l) ∧
    (∀ f, (Neu.pred f).isMatch x = true ↔ f x = true) ∧
    (∀ r, (Neu.range r).isMatch x = true ↔
      r.lo.allowsFrom (Item.key x) ∧ r.hi.allowsUpTo (Item.key x)) ∧
    (Neu.always : Neu ι).isMatch x = true ∧ ¬ (Neu.never : Neu ι).isMatch x = true := by
  refine ⟨by simp [Neu.isMatch], by simp [Neu.isMatch], by simp [Neu.isMatch], ?_, ?_, ?_, ?_, ?_,
    rfl, by simp [Neu.isMatch]⟩
  · intro a; simp [Neu.isMatch, eq_comm]
  · intro a; simp [Neu.isMatch, eq_comm]
  · intro l; simp [Neu.isMatch]
  · intro f; simp [Neu.isMatch]
  · intro r; simp only [Neu.isMatch, contains_iff]

/-- **C22 (laws).** Hence the Boolean-algebra laws hold of the accepted items. -/
theorem C22_boolean_algebra (u v w : Neu ι) (x : ι) :
    (Neu.not (.not u)).isMatch x = u.isMatch x ∧
    (Neu.not (.and u v)).isMatch x = (Neu.or (.not u) (.not v)).isMatch x ∧
    (Neu.not (.or u v)).isMatch x = (Neu.and (.not u) (.not v)).isMatch x ∧
    (Neu.and u (.or v w)).isMatch x = (Neu.or (.and u v) (.and u w)).isMatch x ∧
    (Neu.or u (.and v w)).isMatch x = (Neu.and (.or u v) (.or u w)).isMatch x ∧
    (Neu.or u (.not u)).isMatch x = (Neu.always : Neu ι).isMatch x ∧
    (Neu.and u (.not u)).isMatch x = (Neu.never : Neu ι).isMatch x := by
  simp only [Neu.isMatch]
  refine ⟨?_, ?_, ?_, ?_, ?_, ?_, ?_⟩ <;> cases u.isMatch x <;> simp

example : (Neu.and (.range ⟨.incl 97, .incl 122⟩) (.not (.item 'b'))).isMatch 'a' = true ∧
    (Neu.and (.range ⟨.incl 97, .incl 122⟩) (.not (.item 'b'))).isMatch 'b' = false := by decide

/-! ## C23 -/

theorem greedy_congr {o : Nat} {u : Neu ι} {c : Cond ι β} {P Q : Nat → Prop}
    (h : ∀ k, P (k + 1) ↔ Q (k + 1)) {run rest : List ι} :
    GreedyRun G pol d o u c P run rest ↔ GreedyRun G pol d o u c Q run rest := by
  unfold GreedyRun AcceptedRun; simp only [h]

theorem scanError_congr {o : Nat} {u : Neu ι} {c : Cond ι β} {P Q : Nat → Prop}
    (h : ∀ k, P (k + 1) ↔ Q (k + 1)) {e : Error} :
    ScanError G pol d o u c P e ↔ ScanError G pol d o u c Q e := by
  unfold ScanError AcceptedRun; simp only [h]

theorem GreedyRun.split {o : Nat} {u : Neu ι} {c : Cond ι β} {P : Nat → Prop} {run rest post : List ι}
    (h : GreedyRun G pol d o u c P run rest) (hd : dropB d o = some post) : post = run ++ rest := by
  obtain ⟨⟨pre, h1, h2⟩, _⟩ := h
  rw [h1, ← h2, List.append_assoc, dropB_append] at hd
  exact (Option.some.inj hd).symm

/-- All counts allowed. -/
abbrev anyCount : Nat → Prop := fun _ => True

/-- What the scan loop of a unit pattern finds, with the span length computed
from it. -/
theorem scan_cases {o : Nat} {u : Neu ι} {c : Cond ι β} {more : Nat → Bool} {post : List ι}
    (hd : dropB d o = some post) {s : Scan ι}
    (h : scan (testItem (matL G pol) d o u c) more 0 none (indices 0 post) = some (.ok s)) :
    ∃ run rest, GreedyRun G pol d o u c (fun k => more (k - 1) = true) run rest ∧
      s.cnt = run.length ∧ s.beg = (if run = [] then none else some 0) ∧
      (s.stop.or (s.rest.head?.map (·.1))) = (if rest = [] then none else some (blen run)) ∧
      ((∀ k, more k = true) → s.stop = if rest = [] then none else some (blen run)) ∧
      post = run ++ rest := by
  obtain ⟨run, rest, hp⟩ := scan_ok h
  refine ⟨run, rest, (scan_greedy hd run rest hp.split).mp ⟨s, h, hp⟩, by simpa using hp.cnt_eq,
    by simpa using hp.beg_eq, by simpa using hp.next, by simpa using hp.stop_eq, hp.split⟩

theorem scan_exists {o : Nat} {u : Neu ι} {c : Cond ι β} {more : Nat → Bool} {post : List ι}
    (hd : dropB d o = some post) {run rest : List ι}
    (h : GreedyRun G pol d o u c (fun k => more (k - 1) = true) run rest) :
    ∃ s, scan (testItem (matL G pol) d o u c) more 0 none (indices 0 post) = some (.ok s) ∧
      s.cnt = run.length ∧ s.beg = (if run = [] then none else some 0) ∧
      (s.stop.or (s.rest.head?.map (·.1))) = (if rest = [] then none else some (blen run)) ∧
      ((∀ k, more k = true) → s.stop = if rest = [] then none else some (blen run)) ∧
      post = run ++ rest := by
  have hs := h.split hd
  obtain ⟨s, h1, hp⟩ := (scan_greedy hd run rest hs).mpr h
  exact ⟨s, h1, by simpa using hp.cnt_eq, by simpa using hp.beg_eq, by simpa using hp.next,
    by simpa using hp.stop_eq, hs⟩

theorem span_of_run (o : Nat) {run rest : List ι} :
    spanK o (calcLength (if run = [] then none else some 0)
      (if rest = [] then none else some (blen run)) (blen (run ++ rest))) =
      some (.ok ⟨o, blen run⟩ (o + blen run)) := by
  cases run with
  | nil => simp [calcLength, spanK, newSpanInc]
  | cons x run =>
    cases rest with
    | nil => simp [calcLength, spanK, newSpanInc]
    | cons y rest => simp [calcLength, spanK, newSpanInc]

theorem remK_eq {γ : Type} {post : List ι} {o : Nat} (hd : dropB d o = some post)
    (k : Nat → Option (Res γ)) : remK d o k = k (blen post) := by
  have := dropB_len hd
  unfold remK
  rw [if_pos (by omega), show blen d - o = blen post by omega]

theorem peek_eq {post : List ι} {o : Nat} (hd : dropB d o = some post) :
    peek d o = .ok (indices 0 post) := peek_ok.mpr ⟨post, hd, rfl⟩

/-- **C23 (`many0`).** From a valid position, `many0` succeeds with exactly the
longest accepted run (possibly empty); it fails only with an error raised by
the user's condition. -/
theorem C23_many0 (u : Neu ι) (c : Cond ι β) (o : Nat) (hv : Valid d o) :
    (∀ s o', Parses G pol d (.many0 u c) o (.ok s o') ↔
      ∃ run rest, GreedyRun G pol d o u c anyCount run rest ∧ s = ⟨o, blen run⟩ ∧ o' = o + blen run) ∧
    (∀ e o', Parses G pol d (.many0 u c) o (.err e o') ↔
      o' = o ∧ ScanError G pol d o u c anyCount e) := by
  obtain ⟨post, hd⟩ := valid_iff_dropB.mp hv
  have gc : ∀ run rest, GreedyRun G pol d o u c (fun k => (fun _ => true) (k - 1) = true) run rest ↔
      GreedyRun G pol d o u c anyCount run rest := fun _ _ => greedy_congr (by simp)
  have sc : ∀ e, ScanError G pol d o u c (fun k => (fun _ => true) (k - 1) = true) e ↔
      ScanError G pol d o u c anyCount e := fun _ => scanError_congr (by simp)
  simp only [parses_iff, parseL_many0, many0Parse, remK_eq hd, peek_eq hd, caseO_some]
  refine ⟨fun sp o' => ?_, fun e o' => ?_⟩
  · constructor
    · rintro (⟨h, _⟩ | ⟨it, h, h2⟩ | ⟨_, h, _⟩)
      · cases h
      · cases h
        rcases h2 with ⟨_, h⟩ | ⟨s, hs, h⟩ | ⟨_, _, h⟩
        · cases h
        · obtain ⟨run, rest, hg, _, hb, _, hst, hp⟩ := scan_cases hd hs
          refine ⟨run, rest, (gc _ _).mp hg, ?_⟩
          have hsp := span_of_run o (run := run) (rest := rest)
          rw [← hb, ← hst (by simp), ← hp] at hsp
          cases hbe : s.beg with
          | none =>
            rw [hbe] at h hb
            have : run = [] := by
              by_cases hr : run = []
              · exact hr
              · rw [if_neg hr] at hb; cases hb
            subst this
            simp at h
            exact ⟨h.1.symm, by simpa using h.2.symm⟩
          | some b =>
            rw [hbe] at h hsp
            simp only [hsp] at h
            cases h; exact ⟨rfl, rfl⟩
        · cases h
      · cases h
    · rintro ⟨run, rest, hg, rfl, rfl⟩
      obtain ⟨s, hs, _, hb, _, hst, hp⟩ := scan_exists (more := fun _ => true) hd ((gc _ _).mpr hg)
      refine .inr (.inl ⟨_, rfl, .inr (.inl ⟨s, hs, ?_⟩)⟩)
      have hsp := span_of_run o (run := run) (rest := rest)
      rw [← hb, ← hst (by simp), ← hp] at hsp
      cases hbe : s.beg with
      | none =>
        rw [hbe] at hb
        have : run = [] := by
              by_cases hr : run = []
              · exact hr
              · rw [if_neg hr] at hb; cases hb
        subst this; simp
      | some b => rw [hbe] at hsp; exact hsp
  · constructor
    · rintro (⟨h, _⟩ | ⟨it, h, h2⟩ | ⟨_, h, _⟩)
      · cases h
      · cases h
        rcases h2 with ⟨_, h⟩ | ⟨s, hs, h⟩ | ⟨e', h, h'⟩
        · cases h
        · split at h
          · cases h
          · unfold spanK newSpanInc at h; split at h <;> cases h
        · cases h'; exact ⟨rfl, (sc _).mp ((scan_error hd).mp h)⟩
      · cases h
    · rintro ⟨rfl, h⟩
      exact .inr (.inl ⟨_, rfl, .inr (.inr ⟨e, (scan_error hd).mpr ((sc _).mpr h), rfl⟩)⟩)

/-- **C23 (`many1`).** As `many0`, but an empty run is the error
`Error::Many1`, with the offset unchanged. -/
theorem C23_many1 (u : Neu ι) (c : Cond ι β) (o : Nat) (hv : Valid d o) :
    (∀ s o', Parses G pol d (.many1 u c) o (.ok s o') ↔
      ∃ run rest, GreedyRun G pol d o u c anyCount run rest ∧ run ≠ [] ∧
        s = ⟨o, blen run⟩ ∧ o' = o + blen run) ∧
    (∀ e o', Parses G pol d (.many1 u c) o (.err e o') ↔
      o' = o ∧ (ScanError G pol d o u c anyCount e ∨
        (e = .many1 ∧ ∃ rest, GreedyRun G pol d o u c anyCount [] rest))) := by
  obtain ⟨post, hd⟩ := valid_iff_dropB.mp hv
  have gc : ∀ run rest, GreedyRun G pol d o u c (fun k => (fun _ => true) (k - 1) = true) run rest ↔
      GreedyRun G pol d o u c anyCount run rest := fun _ _ => greedy_congr (by simp)
  have sc : ∀ e, ScanError G pol d o u c (fun k => (fun _ => true) (k - 1) = true) e ↔
      ScanError G pol d o u c anyCount e := fun _ => scanError_congr (by simp)
  simp only [parses_iff, parseL_many1, many1Parse, remK_eq hd, peek_eq hd, caseO_some]
  refine ⟨fun sp o' => ?_, fun e o' => ?_⟩
  · constructor
    · rintro (⟨h, _⟩ | ⟨it, h, h2⟩ | ⟨_, h, _⟩)
      · cases h
      · cases h
        rcases h2 with ⟨_, h⟩ | ⟨s, hs, h⟩ | ⟨_, _, h⟩
        · cases h
        · obtain ⟨run, rest, hg, _, hb, _, hst, hp⟩ := scan_cases hd hs
          have hsp := span_of_run o (run := run) (rest := rest)
          rw [← hb, ← hst (by simp), ← hp] at hsp
          cases hbe : s.beg with
          | none => rw [hbe] at h; cases h
          | some b =>
            rw [hbe] at h hsp hb
            simp only [hsp] at h
            cases h
            refine ⟨run, rest, (gc _ _).mp hg, ?_, rfl, rfl⟩
            intro hr; simp [hr] at hb
        · cases h
      · cases h
    · rintro ⟨run, rest, hg, hne, rfl, rfl⟩
      obtain ⟨s, hs, _, hb, _, hst, hp⟩ := scan_exists (more := fun _ => true) hd ((gc _ _).mpr hg)
      refine .inr (.inl ⟨_, rfl, .inr (.inl ⟨s, hs, ?_⟩)⟩)
      have hsp := span_of_run o (run := run) (rest := rest)
      rw [← hb, ← hst (by simp), ← hp] at hsp
      rw [if_neg hne] at hb
      rw [hb] at hsp ⊢; exact hsp
  · constructor
    · rintro (⟨h, _⟩ | ⟨it, h, h2⟩ | ⟨_, h, _⟩)
      · cases h
      · cases h
        rcases h2 with ⟨_, h⟩ | ⟨s, hs, h⟩ | ⟨e', h, h'⟩
        · cases h
        · split at h
          · next hb =>
            cases h
            obtain ⟨run, rest, hg, _, hb', _⟩ := scan_cases hd hs
            have : run = [] := by
              by_cases hr : run = []
              · exact hr
              · rw [if_neg hr, hb] at hb'; cases hb'
            subst this
            exact ⟨rfl, .inr ⟨rfl, rest, (gc _ _).mp hg⟩⟩
          · unfold spanK newSpanInc at h; split at h <;> cases h
        · cases h'; exact ⟨rfl, .inl ((sc _).mp ((scan_error hd).mp h))⟩
      · cases h
    · rintro ⟨rfl, h | ⟨rfl, rest, hg⟩⟩
      · exact .inr (.inl ⟨_, rfl, .inr (.inr ⟨e, (scan_error hd).mpr ((sc _).mpr h), rfl⟩)⟩)
      · obtain ⟨s, hs, _, hb, _⟩ := scan_exists (more := fun _ => true) hd ((gc _ _).mpr hg)
        refine .inr (.inl ⟨_, rfl, .inr (.inl ⟨s, hs, ?_⟩)⟩)
        simp at hb; rw [hb]

theorem one_span (o i : Nat) (x : ι) (l : List ι) :
    spanK o (calcLength (some i) ((indices (i + Item.size x) l).head?.map (·.1)) (i + blen (x :: l))) =
      some (.ok ⟨o, Item.size x⟩ (o + Item.size x)) := by
  rw [indices_head]
  cases l with
  | nil => simp [calcLength, spanK, newSpanInc]
  | cons y l => simp [calcLength, spanK, newSpanInc]

/-- **C23 (`once`).** `once` matches exactly one item, the next one, iff it is
accepted; otherwise `Error::Once` (or the condition's own error), offset
unchanged. `rest` is the input from `o` on. -/
theorem C23_once (u : Neu ι) (c : Cond ι β) (pre rest : List ι) (hd : d = pre ++ rest) :
    (∀ s o', Parses G pol d (.once u c) (blen pre) (.ok s o') ↔
      ∃ x tl, rest = x :: tl ∧ ItemGives G pol d (blen pre) u c 0 x (.ok true) ∧
        s = ⟨blen pre, Item.size x⟩ ∧ o' = blen pre + Item.size x) ∧
    (∀ e o', Parses G pol d (.once u c) (blen pre) (.err e o') ↔ o' = blen pre ∧
      ((rest = [] ∧ e = .once) ∨ ∃ x tl, rest = x :: tl ∧
        ((ItemGives G pol d (blen pre) u c 0 x (.ok false) ∧ e = .once) ∨
          ItemGives G pol d (blen pre) u c 0 x (.err e)))) := by
  have hdr : dropB d (blen pre) = some rest := by rw [hd]; exact dropB_append _ _
  have hv : Valid d (blen pre + 0) := ⟨pre, rest, hd, rfl⟩
  simp only [parses_iff, parseL_once, onceParse, remK_eq hdr, peek_eq hdr, caseO_some]
  cases rest with
  | nil =>
    refine ⟨fun s o' => ?_, fun e o' => ?_⟩
    · simp
    · simp [eq_comm, and_comm]
  | cons x tl =>
    have hsp := one_span (blen pre) 0 x tl
    rw [Nat.zero_add, Nat.zero_add] at hsp
    have hd1 : Nat.add 0 (Item.size x) = Item.size x := Nat.zero_add _
    simp only [indices_cons, Nat.zero_add, hsp, testItem_iff hv, List.cons.injEq, reduceCtorEq,
      false_and, false_or]
    refine ⟨fun s o' => ?_, fun e o' => ?_⟩
    · constructor
      · rintro (⟨h, _⟩ | ⟨it, h, h2⟩ | ⟨_, h, _⟩)
        · cases h
        · cases h
          simp only [caseO_some, hsp, testItem_iff hv, reduceCtorEq, and_false, exists_false,
            or_false, false_or] at h2
          rcases h2 with ⟨b, hb, h⟩ | ⟨_, _, h⟩
          · cases b with
            | true =>
              simp only [if_true, Option.some.injEq, Res.ok.injEq] at h
              exact ⟨x, tl, ⟨rfl, rfl⟩, hb, h.1.symm, h.2.symm⟩
            | false => simp at h
          · cases h
        · cases h
      · rintro ⟨_, _, ⟨rfl, rfl⟩, h, rfl, rfl⟩
        refine .inr (.inl ⟨_, rfl, ?_⟩)
        simp only [caseO_some, testItem_iff hv, hsp]
        exact .inr (.inl ⟨true, h, rfl⟩)
    · constructor
      · rintro (⟨h, _⟩ | ⟨it, h, h2⟩ | ⟨_, h, _⟩)
        · cases h
        · cases h
          simp only [caseO_some, hsp, testItem_iff hv, reduceCtorEq, and_false, exists_false,
            or_false, false_or] at h2
          rcases h2 with ⟨b, hb, h⟩ | ⟨e', h1, h2⟩
          · cases b with
            | true => simp at h
            | false =>
              simp only [Bool.false_eq_true, if_false, Option.some.injEq, Res.err.injEq] at h
              exact ⟨h.2.symm, x, tl, ⟨rfl, rfl⟩, .inl ⟨hb, h.1.symm⟩⟩
          · cases h2
            exact ⟨rfl, x, tl, ⟨rfl, rfl⟩, .inr h1⟩
        · cases h
      · rintro ⟨rfl, _, _, ⟨rfl, rfl⟩, h⟩
        refine .inr (.inl ⟨_, rfl, ?_⟩)
        simp only [caseO_some, testItem_iff hv, hsp]
        rcases h with ⟨h, rfl⟩ | h
        · exact .inr (.inl ⟨false, h, rfl⟩)
        · exact .inr (.inr ⟨e, h, rfl⟩)

/-- **C23 (`opt` of a unit).** `unit.opt()` matches the next item if it is
accepted, and the empty span otherwise. -/
theorem C23_opt_unit (u : Neu ι) (c : Cond ι β) (pre rest : List ι) (hd : d = pre ++ rest) :
    (∀ s o', Parses G pol d (.optU u c) (blen pre) (.ok s o') ↔
      (∃ x tl, rest = x :: tl ∧ ItemGives G pol d (blen pre) u c 0 x (.ok true) ∧
        s = ⟨blen pre, Item.size x⟩ ∧ o' = blen pre + Item.size x) ∨
      ((∀ x tl, rest = x :: tl → ItemGives G pol d (blen pre) u c 0 x (.ok false)) ∧
        s = ⟨blen pre, 0⟩ ∧ o' = blen pre)) ∧
    (∀ e o', Parses G pol d (.optU u c) (blen pre) (.err e o') ↔ o' = blen pre ∧
      ∃ x tl, rest = x :: tl ∧ ItemGives G pol d (blen pre) u c 0 x (.err e)) := by
  have hdr : dropB d (blen pre) = some rest := by rw [hd]; exact dropB_append _ _
  have hv : Valid d (blen pre + 0) := ⟨pre, rest, hd, rfl⟩
  simp only [parses_iff, parseL_optU, optUParse, remK_eq hdr, peek_eq hdr]
  cases rest with
  | nil =>
    refine ⟨fun s o' => ?_, fun e o' => ?_⟩
    · simp [caseO, eq_comm]
    · simp [caseO]
  | cons x tl =>
    have hsp := one_span (blen pre) 0 x tl
    rw [Nat.zero_add, Nat.zero_add] at hsp
    have un : ∀ r r', ItemGives G pol d (blen pre) u c 0 x r → ItemGives G pol d (blen pre) u c 0 x r' →
        r = r' := by
      intro r r' h h'
      rw [← testItem_iff hv] at h h'
      rw [h] at h'; exact Option.some.inj h'
    simp only [indices_cons, Nat.zero_add]
    simp only [caseO_some, reduceCtorEq, false_and, false_or, and_false, or_false, exists_false,
      Option.some.injEq, Out.ok.injEq, exists_eq_left', hsp, testItem_iff hv, List.cons.injEq,
      Res.err.injEq]
    refine ⟨fun s o' => ?_, fun e o' => ?_⟩
    · constructor
      · rintro ⟨b, hb, h⟩
        cases b with
        | true =>
          simp only [if_true, Option.some.injEq, Res.ok.injEq] at h
          exact .inl ⟨x, tl, ⟨rfl, rfl⟩, hb, h.1.symm, h.2.symm⟩
        | false =>
          simp only [Bool.false_eq_true, if_false, Option.some.injEq, Res.ok.injEq] at h
          refine .inr ⟨?_, h.1.symm, h.2.symm⟩
          rintro _ _ ⟨rfl, rfl⟩; exact hb
      · rintro (⟨_, _, ⟨rfl, rfl⟩, h, rfl, rfl⟩ | ⟨h, rfl, rfl⟩)
        · exact ⟨true, h, rfl⟩
        · exact ⟨false, h x tl ⟨rfl, rfl⟩, rfl⟩
    · constructor
      · rintro (⟨b, hb, h⟩ | ⟨e', h, rfl, rfl⟩)
        · cases b <;> simp at h
        · exact ⟨rfl, x, tl, ⟨rfl, rfl⟩, h⟩
      · rintro ⟨rfl, _, _, ⟨rfl, rfl⟩, h⟩
        exact .inr ⟨e, h, rfl, rfl⟩

/-! ### Without conditions: `takeWhile` -/

theorem itemGives_empty {o i : Nat} {u : Neu ι} {x : ι} {b : Bool} :
    ItemGives (β := β) G pol d o u .empty i x (.ok b) ↔ u.isMatch x = b := by
  unfold ItemGives CondGives
  cases h : u.isMatch x <;> cases b <;> simp

theorem greedy_takeWhile (u : Neu ι) (pre post : List ι) (hd : d = pre ++ post) (n : Option Nat) :
    GreedyRun (β := β) G pol d (blen pre) u .empty (fun k => ∀ m, n = some m → k ≤ m)
      (match n with | none => post.takeWhile u.isMatch | some m => (post.takeWhile u.isMatch).take m)
      (match n with
        | none => post.dropWhile u.isMatch
        | some m => (post.takeWhile u.isMatch).drop m ++ post.dropWhile u.isMatch) := by
  have hsplit := List.takeWhile_append_dropWhile (p := u.isMatch) (l := post)
  have hacc : ∀ x ∈ post.takeWhile u.isMatch, u.isMatch x = true := by
    intro x hx; exact List.all_eq_true.mp List.all_takeWhile x hx
  have hrej : ∀ x b, post.dropWhile u.isMatch = x :: b → u.isMatch x = false := by
    intro x b h
    have := List.head?_dropWhile_not u.isMatch post
    rw [h] at this; simpa using this
  cases n with
  | none =>
    refine ⟨⟨pre, by rw [List.append_assoc, hsplit, hd], rfl⟩, ?_, ?_⟩
    · intro a x b hab
      refine ⟨by simp, itemGives_empty.mpr (hacc x ?_)⟩
      simp only at hab; rw [hab]; simp
    · intro x b hx _
      exact itemGives_empty.mpr (hrej x b hx)
  | some m =>
    refine ⟨⟨pre, by simp only; rw [List.append_assoc, ← List.append_assoc (List.take _ _),
      List.take_append_drop, hsplit, hd], rfl⟩, ?_, ?_⟩
    · intro a x b hab
      simp only at hab
      refine ⟨?_, itemGives_empty.mpr (hacc x ?_)⟩
      · intro m' hm'
        have := congrArg List.length hab
        simp only [List.length_take, List.length_append, List.length_cons] at this
        cases hm'; omega
      · apply List.mem_of_mem_take (i := m); rw [hab]; simp
    · intro x b hx hm
      simp only at hx hm
      have hm := hm m rfl
      simp only [List.length_take] at hm
      have : (post.takeWhile u.isMatch).drop m = [] := by
        apply List.drop_eq_nil_of_le; omega
      rw [this, List.nil_append] at hx
      exact itemGives_empty.mpr (hrej x b hx)

/-- **C23 (plain units).** Without a condition: `many0` always succeeds with
exactly `takeWhile unit` of the remaining input, and nothing else is possible. -/
theorem C23_many0_takeWhile (u : Neu ι) (pre post : List ι) (hd : d = pre ++ post) (r : Res Span) :
    Parses (β := β) G pol d (.many0 u .empty) (blen pre) r ↔
      r = .ok ⟨blen pre, blen (post.takeWhile u.isMatch)⟩
        (blen pre + blen (post.takeWhile u.isMatch)) := by
  have hv : Valid d (blen pre) := ⟨pre, post, hd, rfl⟩
  have hg := greedy_takeWhile (β := β) (G := G) (pol := pol) u pre post hd none
  have hg : GreedyRun (β := β) G pol d (blen pre) u .empty anyCount (post.takeWhile u.isMatch)
      (post.dropWhile u.isMatch) := (greedy_congr (by simp)).mp hg
  have hp := ((C23_many0 (β := β) (G := G) (pol := pol) u .empty _ hv).1 _ _).mpr ⟨_, _, hg, rfl, rfl⟩
  constructor
  · intro h
    rw [parses_iff] at h hp; rw [h] at hp; exact Option.some.inj hp
  · rintro rfl; exact hp

example : Parses (β := Nat) G0 none ['a', 'a', 'b'] (.many0 (.item 'a') .empty) 0 (.ok ⟨0, 2⟩ 2) :=
  ⟨3, by decide⟩
example : Valid ['a', 'a', 'b'] 1 := ⟨['a'], ['a', 'b'], rfl, rfl⟩

/-- **C23 (plain units).** `many1`: the same, failing iff the next item is not
accepted. -/
theorem C23_many1_takeWhile (u : Neu ι) (pre post : List ι) (hd : d = pre ++ post) (r : Res Span) :
    Parses (β := β) G pol d (.many1 u .empty) (blen pre) r ↔
      r = if post.takeWhile u.isMatch = [] then .err .many1 (blen pre) else
        .ok ⟨blen pre, blen (post.takeWhile u.isMatch)⟩
          (blen pre + blen (post.takeWhile u.isMatch)) := by
  have hv : Valid d (blen pre) := ⟨pre, post, hd, rfl⟩
  have hg := greedy_takeWhile (β := β) (G := G) (pol := pol) u pre post hd none
  have hg : GreedyRun (β := β) G pol d (blen pre) u .empty anyCount (post.takeWhile u.isMatch)
      (post.dropWhile u.isMatch) := (greedy_congr (by simp)).mp hg
  have hp : Parses (β := β) G pol d (.many1 u .empty) (blen pre)
      (if post.takeWhile u.isMatch = [] then .err .many1 (blen pre) else
        .ok ⟨blen pre, blen (post.takeWhile u.isMatch)⟩
          (blen pre + blen (post.takeWhile u.isMatch))) := by
    split
    · next hn =>
      rw [hn] at hg
      exact ((C23_many1 u .empty _ hv).2 _ _).mpr ⟨rfl, .inr ⟨rfl, _, hg⟩⟩
    · next hn => exact ((C23_many1 u .empty _ hv).1 _ _).mpr ⟨_, _, hg, hn, rfl, rfl⟩
  constructor
  · intro h
    rw [parses_iff] at h hp; rw [h] at hp; exact Option.some.inj hp
  · rintro rfl; exact hp

/-! ## C24 -/

theorem AcceptedRun.size_le {o : Nat} {u : Neu ι} {c : Cond ι β} {P : Nat → Prop} {run : List ι}
    (hf : u.Fair) (h : AcceptedRun G pol d o u c P run) : run.length * u.minLength ≤ blen run := by
  have : ∀ l : List ι, (∀ x ∈ l, u.minLength ≤ Item.size x) → l.length * u.minLength ≤ blen l := by
    intro l
    induction l with
    | nil => simp
    | cons x l ih =>
      intro hl
      have h1 := hl x (by simp)
      have h2 := ih fun y hy => hl y (by simp [hy])
      simp only [List.length_cons, blen_cons, Nat.add_mul, Nat.one_mul]; omega
  apply this
  intro x hx
  obtain ⟨a, b, hab⟩ := List.append_of_mem hx
  rcases (h a x b hab).2 with ⟨h1, _⟩ | ⟨_, h2⟩
  · exact hf x h1
  · cases h2

theorem blen_run_le {o : Nat} {u : Neu ι} {c : Cond ι β} {P : Nat → Prop} {run rest post : List ι}
    (h : GreedyRun G pol d o u c P run rest) (hd : dropB d o = some post) : blen run ≤ blen post := by
  rw [h.split hd]; simp

/-- **C24 (`between`/`count`).** `between::<M,N>` (inclusive; `count::<M>` is
`between::<M,M>`) consumes the longest accepted run cut at `N` items and
succeeds iff that run has at least `M`; a shorter run is `Error::Between` with
the offset unchanged.  For fair units. -/
theorem C24_between (m n : Nat) (u : Neu ι) (hf : u.Fair) (c : Cond ι β) (o : Nat) (hv : Valid d o) :
    (∀ s o', Parses G pol d (.between m n u c) o (.ok s o') ↔
      ∃ run rest, GreedyRun G pol d o u c (· ≤ n) run rest ∧ m ≤ run.length ∧
        s = ⟨o, blen run⟩ ∧ o' = o + blen run) ∧
    (∀ run rest, GreedyRun G pol d o u c (· ≤ n) run rest → run.length < m →
      Parses G pol d (.between m n u c) o (.err .between o)) ∧
    (∀ e o', Parses G pol d (.between m n u c) o (.err e o') → o' = o ∧
      (e = .between ∨ ScanError G pol d o u c (· ≤ n) e)) := by
  obtain ⟨post, hd⟩ := valid_iff_dropB.mp hv
  have cg : ∀ k, (decide (k + 1 - 1 < n) = true ↔ k + 1 ≤ n) := by intro k; simp; omega
  have gc : ∀ run rest, GreedyRun G pol d o u c (fun k => (fun cnt => decide (cnt < n)) (k - 1) = true)
      run rest ↔ GreedyRun G pol d o u c (· ≤ n) run rest := fun _ _ => greedy_congr cg
  have sc : ∀ e, ScanError G pol d o u c (fun k => (fun cnt => decide (cnt < n)) (k - 1) = true) e ↔
      ScanError G pol d o u c (· ≤ n) e := fun _ => scanError_congr cg
  simp only [parses_iff, parseL_between, betweenParse, remK_eq hd, peek_eq hd]
  simp only [caseO_some, reduceCtorEq, false_and, false_or, and_false, or_false, exists_false,
      Option.some.injEq, Out.ok.injEq, exists_eq_left']
  refine ⟨fun sp o' => ?_, fun run rest hg hlt => ?_, fun e o' h => ?_⟩
  · constructor
    · intro h
      split at h
      · simp only [caseO_some, reduceCtorEq, and_false, exists_false, or_false, false_or,
          Option.some.injEq] at h
        obtain ⟨s, hs, h⟩ := h
        obtain ⟨run, rest, hg, hc, hb, hst, _, hp⟩ := scan_cases hd hs
        split at h
        · next hm =>
          rw [hb, hst, hp, span_of_run] at h
          cases h
          exact ⟨run, rest, (gc _ _).mp hg, by omega, rfl, rfl⟩
        · cases h
      · cases h
    · rintro ⟨run, rest, hg, hm, rfl, rfl⟩
      have h1 := hg.2.1.size_le hf
      have h2 := blen_run_le hg hd
      have h3 := Nat.mul_le_mul_right u.minLength hm
      rw [if_pos (by omega)]
      obtain ⟨s, hs, hc, hb, hst, _, hp⟩ := scan_exists (more := fun cnt => decide (cnt < n)) hd ((gc _ _).mpr hg)
      rw [hs]
      simp only [caseO]
      rw [if_pos (by omega), hb, hst, hp, span_of_run]
  · split
    · obtain ⟨s, hs, hc, _⟩ := scan_exists (more := fun cnt => decide (cnt < n)) hd ((gc _ _).mpr hg)
      rw [hs]; simp only [caseO]; rw [if_neg (by omega)]
    · rfl
  · split at h
    · simp only [caseO_some, reduceCtorEq, and_false, false_or, Option.some.injEq] at h
      rcases h with ⟨s, hs, h⟩ | ⟨e', h, h'⟩
      · split at h
        · unfold spanK newSpanInc at h; split at h <;> cases h
        · cases h; exact ⟨rfl, .inl rfl⟩
      · cases h'; exact ⟨rfl, .inr ((sc _).mp ((scan_error hd).mp h))⟩
    · cases h; exact ⟨rfl, .inl rfl⟩

/-- **C24 (`times`/`at_least`/`at_most`).** `times(range)` consumes the longest
accepted run not exceeding the range's upper bound and succeeds iff its length
is in the range.  For fair units. -/
theorem C24_times (r : CRange) (u : Neu ι) (hf : u.Fair) (c : Cond ι β) (o : Nat) (hv : Valid d o) :
    (∀ s o', Parses G pol d (.times r u c) o (.ok s o') ↔
      ∃ run rest, GreedyRun G pol d o u c r.hi.allowsUpTo run rest ∧
        r.lo.allowsFrom run.length ∧ r.hi.allowsUpTo run.length ∧
        s = ⟨o, blen run⟩ ∧ o' = o + blen run) ∧
    (∀ run rest, GreedyRun G pol d o u c r.hi.allowsUpTo run rest →
      ¬ (r.lo.allowsFrom run.length ∧ r.hi.allowsUpTo run.length) →
      Parses G pol d (.times r u c) o (.err .times o)) ∧
    (∀ e o', Parses G pol d (.times r u c) o (.err e o') → o' = o ∧
      (e = .times ∨ ScanError G pol d o u c r.hi.allowsUpTo e)) := by
  obtain ⟨post, hd⟩ := valid_iff_dropB.mp hv
  have cg : ∀ k, (r.more (k + 1 - 1) = true ↔ r.hi.allowsUpTo (k + 1)) := by
    intro k; rw [Nat.add_sub_cancel, more_iff]
  have gc : ∀ run rest, GreedyRun G pol d o u c (fun k => r.more (k - 1) = true)
      run rest ↔ GreedyRun G pol d o u c r.hi.allowsUpTo run rest := fun _ _ => greedy_congr cg
  have sc : ∀ e, ScanError G pol d o u c (fun k => r.more (k - 1) = true) e ↔
      ScanError G pol d o u c r.hi.allowsUpTo e := fun _ => scanError_congr cg
  simp only [parses_iff, parseL_times, timesParse, remK_eq hd, peek_eq hd]
  simp only [caseO_some, reduceCtorEq, false_and, false_or, and_false, or_false, exists_false,
      Option.some.injEq, Out.ok.injEq, exists_eq_left']
  refine ⟨fun sp o' => ?_, fun run rest hg hlt => ?_, fun e o' h => ?_⟩
  · constructor
    · intro h
      split at h
      · simp only [caseO_some, reduceCtorEq, and_false, exists_false, or_false, false_or,
          Option.some.injEq] at h
        obtain ⟨s, hs, h⟩ := h
        obtain ⟨run, rest, hg, hc, hb, hst, _, hp⟩ := scan_cases hd hs
        split at h
        · next hm =>
          rw [hb, hst, hp, span_of_run] at h
          cases h
          rw [hc, contains_iff] at hm
          exact ⟨run, rest, (gc _ _).mp hg, hm.1, hm.2, rfl, rfl⟩
        · cases h
      · cases h
    · rintro ⟨run, rest, hg, hm1, hm2, rfl, rfl⟩
      have h1 := hg.2.1.size_le hf
      have h2 := blen_run_le hg hd
      have h3 : r.needed u.minLength ≤ run.length * u.minLength := by
        unfold CRange.needed
        unfold Bound.allowsFrom at hm1
        split
        · next m hm => rw [hm] at hm1; exact Nat.mul_le_mul_right _ hm1
        · next m hm => rw [hm] at hm1; exact Nat.mul_le_mul_right _ (by simp at hm1; omega)
        · omega
      rw [if_pos (by omega)]
      obtain ⟨s, hs, hc, hb, hst, _, hp⟩ := scan_exists hd ((gc _ _).mpr hg)
      rw [hs]
      simp only [caseO]
      rw [hc, if_pos (contains_iff.mpr ⟨hm1, hm2⟩), hb, hst, hp, span_of_run]
  · split
    · obtain ⟨s, hs, hc, _⟩ := scan_exists hd ((gc _ _).mpr hg)
      rw [hs]; simp only [caseO]; rw [hc, if_neg (by rw [contains_iff]; exact hlt)]
    · rfl
  · split at h
    · simp only [caseO_some, reduceCtorEq, and_false, false_or, Option.some.injEq] at h
      rcases h with ⟨s, hs, h⟩ | ⟨e', h, h'⟩
      · split at h
        · unfold spanK newSpanInc at h; split at h <;> cases h
        · cases h; exact ⟨rfl, .inl rfl⟩
      · cases h'; exact ⟨rfl, .inr ((sc _).mp ((scan_error hd).mp h))⟩
    · cases h; exact ⟨rfl, .inl rfl⟩

/-- **C24 (plain units).** `between::<M,N>` on a fair unit without condition,
as a function of the remaining input. -/
theorem C24_between_takeWhile (m n : Nat) (u : Neu ι) (hf : u.Fair) (pre post : List ι)
    (hd : d = pre ++ post) (r : Res Span) :
    Parses (β := β) G pol d (.between m n u .empty) (blen pre) r ↔
      r = if m ≤ ((post.takeWhile u.isMatch).take n).length then
        .ok ⟨blen pre, blen ((post.takeWhile u.isMatch).take n)⟩
          (blen pre + blen ((post.takeWhile u.isMatch).take n))
      else .err .between (blen pre) := by
  have hv : Valid d (blen pre) := ⟨pre, post, hd, rfl⟩
  have hg := greedy_takeWhile (β := β) (G := G) (pol := pol) u pre post hd (some n)
  have hg := (greedy_congr (Q := (· ≤ n)) (by simp)).mp hg
  have hp : Parses (β := β) G pol d (.between m n u .empty) (blen pre)
      (if m ≤ ((post.takeWhile u.isMatch).take n).length then
        .ok ⟨blen pre, blen ((post.takeWhile u.isMatch).take n)⟩
          (blen pre + blen ((post.takeWhile u.isMatch).take n))
      else .err .between (blen pre)) := by
    split
    · next hn => exact ((C24_between m n u hf .empty _ hv).1 _ _).mpr ⟨_, _, hg, hn, rfl, rfl⟩
    · next hn => exact (C24_between m n u hf .empty _ hv).2.1 _ _ hg (by simpa using hn)
  constructor
  · intro h
    rw [parses_iff] at h hp; rw [h] at hp; exact Option.some.inj hp
  · rintro rfl; exact hp

/-- `src/neu.rs:727-729` `count::<M>()`. -/
def Pat.count (m : Nat) (u : Neu ι) : Pat ι β := .between m m u .empty
/-- `src/neu.rs:731-733` `at_least::<M>()`; `COUNT_MAX` is `usize::MAX`
(`src/neu.rs:714`). -/
def Pat.atLeast (m : Nat) (u : Neu ι) : Pat ι β := .between m usizeMax u .empty
/-- `src/neu.rs:735-737` `at_most::<N>()`. -/
def Pat.atMost (n : Nat) (u : Neu ι) : Pat ι β := .between 0 n u .empty

/-- **C24 (`count`, `at_least`, `at_most`).** `count::<M>` takes exactly `M`
accepted items iff there are that many; `at_least::<M>` takes the whole run iff
it has at least `M` items (inputs have fewer than `usize::MAX` items);
`at_most::<N>` always succeeds and takes the first `N` items of the run. -/
theorem C24_count_at_least_at_most (u : Neu ι) (hf : u.Fair) (pre post : List ι) (k : Nat)
    (hd : d = pre ++ post) (r : Res Span) :
    (Parses (β := β) G pol d (.count k u) (blen pre) r ↔
      r = if k ≤ (post.takeWhile u.isMatch).length then
        .ok ⟨blen pre, blen (post.take k)⟩ (blen pre + blen (post.take k))
      else .err .between (blen pre)) ∧
    (post.length ≤ usizeMax → (Parses (β := β) G pol d (.atLeast k u) (blen pre) r ↔
      r = if k ≤ (post.takeWhile u.isMatch).length then
        .ok ⟨blen pre, blen (post.takeWhile u.isMatch)⟩
          (blen pre + blen (post.takeWhile u.isMatch))
      else .err .between (blen pre))) ∧
    (Parses (β := β) G pol d (.atMost k u) (blen pre) r ↔
      r = .ok ⟨blen pre, blen ((post.takeWhile u.isMatch).take k)⟩
        (blen pre + blen ((post.takeWhile u.isMatch).take k))) := by
  refine ⟨?_, fun hp => ?_, ?_⟩
  · unfold Pat.count
    rw [C24_between_takeWhile k k u hf pre post hd]
    by_cases h : k ≤ (post.takeWhile u.isMatch).length
    · rw [if_pos h, if_pos (by simp; omega)]
      have : (post.takeWhile u.isMatch).take k = post.take k := by
        have e := List.takeWhile_append_dropWhile (p := u.isMatch) (l := post)
        conv => rhs; rw [← e]
        rw [List.take_append_of_le_length h]
      rw [this]
    · rw [if_neg h, if_neg (by simp; omega)]
  · unfold Pat.atLeast
    rw [C24_between_takeWhile k usizeMax u hf pre post hd]
    have hl : (post.takeWhile u.isMatch).length ≤ usizeMax :=
      Nat.le_trans (List.takeWhile_sublist _).length_le hp
    rw [List.take_of_length_le hl]
  · unfold Pat.atMost
    rw [C24_between_takeWhile 0 k u hf pre post hd, if_pos (Nat.zero_le _)]

example : Parses (β := Nat) G0 none ['a', 'a', 'b'] (.atLeast 2 (.item 'a')) 0 (.ok ⟨0, 2⟩ 2) :=
  ⟨3, by decide⟩

/-- The units for which C24/C25 hold: everything built without `not`, or with
`not` applied to units of declared minimal length at most 1 — in particular
every unit over bytes. -/
def Neu.Plain : Neu ι → Prop
  | .not u => u.minLength ≤ 1
  | .and u v => u.Plain ∧ v.Plain
  | .or u v => u.Plain ∧ v.Plain
  | _ => True

theorem C24_fair (u : Neu ι) (h : u.Plain ∨ ∀ x : ι, Item.size x = 1) : u.Fair := by
  rcases h with h | h
  · induction u with
    | item a => intro x hx; simp [Neu.isMatch] at hx; subst hx; exact Nat.le_refl _
    | not u _ => intro x _; have := Item.size_pos x; simp only [Neu.minLength]; simp only [Neu.Plain] at h; omega
    | and u v ihu ihv =>
      intro x hx
      simp [Neu.isMatch] at hx
      have h1 := ihu h.1 x hx.1
      have h2 := ihv h.2 x hx.2
      simp only [Neu.minLength]; omega
    | or u v ihu ihv =>
      intro x hx
      simp [Neu.isMatch] at hx
      simp only [Neu.minLength]
      rcases hx with hx | hx
      · have := ihu h.1 x hx; omega
      · have := ihv h.2 x hx; omega
    | _ => intro x _; exact Item.size_pos x
  · have : u.minLength ≤ 1 := by
      induction u with
      | item a => simp [Neu.minLength, h]
      | not u ih => simpa [Neu.minLength] using ih
      | and u v ihu ihv => simp only [Neu.minLength]; omega
      | or u v ihu ihv => simp only [Neu.minLength]; omega
      | _ => simp [Neu.minLength]
    intro x _; rw [h]; exact this

example : (Neu.not (.pred Char.isDigit) : Neu Char).Plain := Nat.le_refl 1
example : Parses (β := Nat) G0 none ['a', 'a', 'a'] (.between 1 2 (.item 'a') .empty) 0 (.ok ⟨0, 2⟩ 2) :=
  ⟨3, by decide⟩
example : Parses (β := Nat) G0 none ['a', 'b'] (.times ⟨.incl 1, .unb⟩ (.item 'a') .empty) 0
    (.ok ⟨0, 1⟩ 1) := ⟨3, by decide⟩

/-- **C24 (counterexample).** `'💝'.not().count::<2>()` on `"ab"`: both
characters are accepted, yet the match fails because the pre-check demands
2 × 4 bytes. -/
theorem C24_not_wide_char_counterexample :
    (∀ x ∈ ['a', 'b'], (Neu.not (.item '💝')).isMatch x = true) ∧
    Parses (β := Nat) G0 none ['a', 'b'] (.between 2 2 (.not (.item '💝')) .empty) 0
      (.err .between 0) ∧
    Parses (β := Nat) G0 none ['a', 'b'] (.times ⟨.incl 2, .incl 2⟩ (.not (.item '💝')) .empty) 0
      (.err .times 0) := by
  refine ⟨by decide, ⟨2, by decide⟩, ⟨2, by decide⟩⟩

/-! ## C25 -/

/-- **C25.** `a.then(b)` on units: matches exactly two consecutive items, the
first accepted by `a`, the second by `b` (each with the condition).  For fair
units. -/
theorem C25_unit_then (u v : Neu ι) (hu : u.Fair) (hv' : v.Fair) (c : Cond ι β) (pre rest : List ι)
    (hd : d = pre ++ rest) (s : Span) (o' : Nat) :
    Parses G pol d (.thenU u v c) (blen pre) (.ok s o') ↔
      ∃ x y tl, rest = x :: y :: tl ∧ ItemGives G pol d (blen pre) u c 0 x (.ok true) ∧
        ItemGives G pol d (blen pre) v c (Item.size x) y (.ok true) ∧
        s = ⟨blen pre, Item.size x + Item.size y⟩ ∧ o' = blen pre + (Item.size x + Item.size y) := by
  have hdr : dropB d (blen pre) = some rest := by rw [hd]; exact dropB_append _ _
  have hv0 : Valid d (blen pre + 0) := ⟨pre, rest, hd, rfl⟩
  simp only [parses_iff, parseL_thenU, thenUParse, remK_eq hdr, peek_eq hdr]
  simp only [caseO_some, reduceCtorEq, false_and, false_or, and_false, or_false, exists_false,
      Option.some.injEq, Out.ok.injEq, exists_eq_left']
  match rest, hd, hdr with
  | [], hd, hdr => simp
  | [x], hd, hdr => simp
  | x :: y :: tl, hd, hdr =>
    have hv1 : Valid d (blen pre + Item.size x) := ⟨pre ++ [x], y :: tl, by simp [hd], by simp⟩
    simp only [indices_cons, Nat.zero_add, List.cons.injEq]
    have hsp : spanK (blen pre) (calcLength (some 0)
        ((indices (Item.size x + Item.size y) tl).head?.map (·.1)) (blen (x :: y :: tl))) =
        some (.ok ⟨blen pre, Item.size x + Item.size y⟩ (blen pre + (Item.size x + Item.size y))) := by
      rw [indices_head]
      cases tl with
      | nil => simp [calcLength, spanK, newSpanInc]
      | cons z tl => simp [calcLength, spanK, newSpanInc]
    rw [hsp]
    constructor
    · intro h
      split at h
      · simp only [caseO_some, testItem_iff hv0, testItem_iff hv1] at h
        rcases h with ⟨_, h⟩ | ⟨b, hb, h⟩ | ⟨_, _, h⟩
        · cases h
        · cases b with
          | false => simp at h
          | true =>
            simp only [if_true, caseO_some, testItem_iff hv1] at h
            rcases h with ⟨_, h⟩ | ⟨b', hb', h⟩ | ⟨_, _, h⟩
            · cases h
            · cases b' with
              | false => simp at h
              | true =>
                simp only [if_true, Option.some.injEq, Res.ok.injEq] at h
                exact ⟨x, y, tl, ⟨rfl, rfl, rfl⟩, hb, hb', h.1.symm, h.2.symm⟩
            · cases h
        · cases h
      · cases h
    · rintro ⟨_, _, _, ⟨rfl, rfl, rfl⟩, h1, h2, rfl, rfl⟩
      have e1 : u.minLength ≤ Item.size x := by
        rcases h1 with ⟨h, _⟩ | ⟨_, h⟩
        · exact hu x h
        · cases h
      have e2 : v.minLength ≤ Item.size y := by
        rcases h2 with ⟨h, _⟩ | ⟨_, h⟩
        · exact hv' y h
        · cases h
      rw [if_pos (by simp; omega)]
      simp only [caseO_some, testItem_iff hv0]
      refine .inr (.inl ⟨true, h1, ?_⟩)
      simp only [if_true, caseO_some, testItem_iff hv1]
      exact .inr (.inl ⟨true, h2, rfl⟩)

example : Parses (β := Nat) G0 none ['a', 'b', 'c'] (.thenU (.item 'a') (.item 'b') .empty) 0
    (.ok ⟨0, 2⟩ 2) := ⟨3, by decide⟩

/-! ## C26 -/

/-- **C26.** `unit.many0().set_cond(regex_cond(q))`: the run consists exactly of
consecutive items that the unit accepts and at which `q` matches the input
starting at that item; it ends at the end of the input or at the first item
that is not accepted or at which `q` fails. The offset ends after the run:
checking consumes nothing. -/
theorem C26_regex_cond (u : Neu ι) (q : Pat ι β) (pre post : List ι) (hd : d = pre ++ post)
    (s : Span) (o' : Nat) :
    Parses G pol d (.many0 u (.regex q)) (blen pre) (.ok s o') ↔
      ∃ run rest, post = run ++ rest ∧
        (∀ a x b, run = a ++ x :: b → u.isMatch x = true ∧ Matches G pol (x :: b ++ rest) q 0) ∧
        (∀ x b, rest = x :: b → u.isMatch x = false ∨ Fails G pol (x :: b) q 0) ∧
        s = ⟨blen pre, blen run⟩ ∧ o' = blen pre + blen run := by
  have hv : Valid d (blen pre) := ⟨pre, post, hd, rfl⟩
  have hdr : dropB d (blen pre) = some post := by rw [hd]; exact dropB_append _ _
  have key : ∀ a l x r, post = a ++ x :: l →
      (ItemGives G pol d (blen pre) u (.regex q) (blen a) x r ↔
        (u.isMatch x = true ∧ ((r = .ok true ∧ Matches G pol (x :: l) q 0) ∨
          (r = .ok false ∧ Fails G pol (x :: l) q 0) ∨ (r = .panic ∧ Runs G pol (x :: l) q 0 .panic))) ∨
        (u.isMatch x = false ∧ r = .ok false)) := by
    intro a l x r hp
    unfold ItemGives CondGives
    constructor
    · rintro (⟨h1, p', r', h2, h3, h⟩ | h)
      · have : r' = x :: l := by
          have e1 := dropB_append p' r'
          have e2 := dropB_append (pre ++ a) (x :: l)
          rw [List.append_assoc, ← hp, ← hd] at e2
          rw [← h2, h3] at e1
          simp only [blen_append] at e2
          rw [e1] at e2; exact Option.some.inj e2
        subst this
        exact .inl ⟨h1, h⟩
      · exact .inr h
    · rintro (⟨h1, h⟩ | h)
      · exact .inl ⟨h1, pre ++ a, x :: l, by rw [hd, hp, List.append_assoc], by simp, h⟩
      · exact .inr h
  rw [(C23_many0 u (.regex q) (blen pre) hv).1]
  constructor
  · rintro ⟨run, rest, hg, rfl, rfl⟩
    have hs := hg.split hdr
    refine ⟨run, rest, hs, fun a x b hab => ?_, fun x b hr => ?_, rfl, rfl⟩
    · have := (hg.2.1 a x b hab).2
      rw [key a (b ++ rest) x _ (by rw [hs, hab]; simp)] at this
      simpa using this
    · have := hg.2.2 x b hr trivial
      rw [key run b x _ (by rw [hs, hr])] at this
      rcases this with ⟨_, h⟩ | ⟨h, _⟩
      · simp at h; exact .inr h
      · exact .inl h
  · rintro ⟨run, rest, hs, h1, h2, rfl, rfl⟩
    refine ⟨run, rest, ⟨⟨pre, by rw [hd, hs, List.append_assoc], rfl⟩, fun a x b hab => ⟨trivial, ?_⟩,
      fun x b hr _ => ?_⟩, rfl, rfl⟩
    · rw [key a (b ++ rest) x _ (by rw [hs, hab]; simp)]
      have := h1 a x b hab
      exact .inl ⟨this.1, .inl ⟨rfl, this.2⟩⟩
    · rw [key run b x _ (by rw [hs, hr])]
      cases hu : u.isMatch x with
      | false => exact .inr ⟨rfl, rfl⟩
      | true =>
        rcases h2 x b hr with h | h
        · rw [h] at hu; cases hu
        · exact .inl ⟨rfl, .inr (.inl ⟨rfl, h⟩)⟩

/-- The same with a range of counts: `unit.between::<m, n>().set_cond(regex_cond(q))`,
hence also `at_most`, `at_least` and `count` (for a fair unit). -/
theorem C26_regex_cond_between (m n : Nat) (u : Neu ι) (hf : u.Fair) (q : Pat ι β) (pre post : List ι)
    (hd : d = pre ++ post) (s : Span) (o' : Nat) :
    Parses G pol d (.between m n u (.regex q)) (blen pre) (.ok s o') ↔
      ∃ run rest, post = run ++ rest ∧ m ≤ run.length ∧ run.length ≤ n ∧
        (∀ a x b, run = a ++ x :: b → u.isMatch x = true ∧ Matches G pol (x :: b ++ rest) q 0) ∧
        (run.length < n → ∀ x b, rest = x :: b → u.isMatch x = false ∨ Fails G pol (x :: b) q 0) ∧
        s = ⟨blen pre, blen run⟩ ∧ o' = blen pre + blen run := by
  have hv : Valid d (blen pre) := ⟨pre, post, hd, rfl⟩
  have hdr : dropB d (blen pre) = some post := by rw [hd]; exact dropB_append _ _
  have key : ∀ a l x r, post = a ++ x :: l →
      (ItemGives G pol d (blen pre) u (.regex q) (blen a) x r ↔
        (u.isMatch x = true ∧ ((r = .ok true ∧ Matches G pol (x :: l) q 0) ∨
          (r = .ok false ∧ Fails G pol (x :: l) q 0) ∨ (r = .panic ∧ Runs G pol (x :: l) q 0 .panic))) ∨
        (u.isMatch x = false ∧ r = .ok false)) := by
    intro a l x r hp
    unfold ItemGives CondGives
    constructor
    · rintro (⟨h1, p', r', h2, h3, h⟩ | h)
      · have : r' = x :: l := by
          have e1 := dropB_append p' r'
          have e2 := dropB_append (pre ++ a) (x :: l)
          rw [List.append_assoc, ← hp, ← hd] at e2
          rw [← h2, h3] at e1
          simp only [blen_append] at e2
          rw [e1] at e2; exact Option.some.inj e2
        subst this
        exact .inl ⟨h1, h⟩
      · exact .inr h
    · rintro (⟨h1, h⟩ | h)
      · exact .inl ⟨h1, pre ++ a, x :: l, by rw [hd, hp, List.append_assoc], by simp, h⟩
      · exact .inr h
  rw [(C24_between m n u hf (.regex q) (blen pre) hv).1]
  constructor
  · rintro ⟨run, rest, hg, hm, rfl, rfl⟩
    have hs := hg.split hdr
    refine ⟨run, rest, hs, hm, ?_, fun a x b hab => ?_, fun hlt x b hr => ?_, rfl, rfl⟩
    · rcases List.eq_nil_or_concat run with rfl | ⟨a, x, rfl⟩
      · simp
      · have := (hg.2.1 a x [] (by simp)).1
        simpa using this
    · have := (hg.2.1 a x b hab).2
      rw [key a (b ++ rest) x _ (by rw [hs, hab]; simp)] at this
      simpa using this
    · have := hg.2.2 x b hr hlt
      rw [key run b x _ (by rw [hs, hr])] at this
      rcases this with ⟨_, h⟩ | ⟨h, _⟩
      · simp at h; exact .inr h
      · exact .inl h
  · rintro ⟨run, rest, hs, hm, hn, h1, h2, rfl, rfl⟩
    refine ⟨run, rest, ⟨⟨pre, by rw [hd, hs, List.append_assoc], rfl⟩, fun a x b hab => ⟨?_, ?_⟩,
      fun x b hr hlt => ?_⟩, hm, rfl, rfl⟩
    · subst hab; simp at hn; show a.length + 1 ≤ n; omega
    · rw [key a (b ++ rest) x _ (by rw [hs, hab]; simp)]
      have := h1 a x b hab
      exact .inl ⟨this.1, .inl ⟨rfl, this.2⟩⟩
    · rw [key run b x _ (by rw [hs, hr])]
      cases hu : u.isMatch x with
      | false => exact .inr ⟨rfl, rfl⟩
      | true =>
        rcases h2 hlt x b hr with h | h
        · rw [h] at hu; cases hu
        · exact .inl ⟨rfl, .inr (.inl ⟨rfl, h⟩)⟩

/-- Example: letters not starting the literal `"ab"`. -/
example : Parses (β := Nat) G0 none ['b', 'a', 'a', 'b']
    (.many0 .always (.regex (.assert (.lit ['a', 'b']) false))) 0 (.ok ⟨0, 2⟩ 2) := ⟨6, by decide⟩

end Neure
