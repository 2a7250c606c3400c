import Verif.PropsUnit
import Verif.PropsComb
import Verif.PropsCtor
/-!
# C07, C25: how `*_ltm` lists panic and how `a.then(b)` of units fails

What is left open by `C07_ltm`, `C07_ltm_construct` and `C25_unit_then`.
-/

namespace Neure

set_option linter.unusedSectionVars false
set_option linter.unusedSimpArgs false

open Demo

variable {ι β σ : Type} [Item ι] {G : Rules ι β} {H : Handler ι β σ} {pol : Option (Pat ι β)} {d : List ι}

/-- **C25 (failure).** `a.then(b)` on any two units fails without moving, exactly when fewer than
two items, or fewer bytes than the two units declare, remain (`Error::NeureThen`); or the first
item, or an accepted first and the second, is not accepted (`Error::NeureThen`), or the condition
answers with an error on it (that error). -/
theorem C25_unit_then_fails (u v : Neu ι) (c : Cond ι β) (pre rest : List ι) (hd : d = pre ++ rest)
    (e : Error) (o' : Nat) :
    Parses G pol d (.thenU u v c) (blen pre) (.err e o') ↔
      o' = blen pre ∧
      ((e = .neureThen ∧ (rest.length < 2 ∨ blen rest < u.minLength + v.minLength)) ∨
       ∃ x y tl, rest = x :: y :: tl ∧ u.minLength + v.minLength ≤ blen rest ∧
        ((ItemGives G pol d (blen pre) u c 0 x (.ok false) ∧ e = .neureThen) ∨
         ItemGives G pol d (blen pre) u c 0 x (.err e) ∨
         (ItemGives G pol d (blen pre) u c 0 x (.ok true) ∧
          ((ItemGives G pol d (blen pre) v c (Item.size x) y (.ok false) ∧ e = .neureThen) ∨
           ItemGives G pol d (blen pre) v c (Item.size x) y (.err e))))) := by
  have hdr : dropB d (blen pre) = some rest := by rw [hd]; exact dropB_append _ _
  have hv0 : Valid d (blen pre + 0) := ⟨pre, rest, hd, rfl⟩
  simp only [parses_iff, parseL_thenU, thenUParse, remK_eq hdr, peek_eq hdr]
  simp only [caseO_some, reduceCtorEq, false_and, false_or, and_false, or_false, exists_false,
      Option.some.injEq, Out.ok.injEq, exists_eq_left']
  match rest, hd, hdr with
  | [], hd, hdr => simp [and_comm, eq_comm]
  | [x], hd, hdr => simp [and_comm, eq_comm]
  | x :: y :: tl, hd, hdr =>
    have hv1 : Valid d (blen pre + Item.size x) := ⟨pre ++ [x], y :: tl, by simp [hd], by simp⟩
    simp only [indices_cons, Nat.zero_add, List.cons.injEq]
    have hsp : spanK (blen pre) (calcLength (some 0)
        ((indices (Item.size x + Item.size y) tl).head?.map (·.1)) (blen (x :: y :: tl))) =
        some (.ok ⟨blen pre, Item.size x + Item.size y⟩ (blen pre + (Item.size x + Item.size y))) := by
      rw [indices_head]
      cases tl with
      | nil => simp [calcLength, spanK, newSpanInc]
      | cons z tl => simp [calcLength, spanK, newSpanInc]
    rw [hsp]
    have h2 : ¬ (x :: y :: tl).length < 2 := by simp
    by_cases hl : blen (x :: y :: tl) ≥ u.minLength + v.minLength
    · rw [if_pos hl]
      simp only [caseO_some, testItem_iff hv0, testItem_iff hv1]
      have hl' : ¬ blen (x :: y :: tl) < u.minLength + v.minLength := by omega
      simp only [h2, hl', or_self, and_false, false_or]
      constructor
      · rintro (⟨_, h⟩ | ⟨b, hb, h⟩ | ⟨e1, hb, h⟩)
        · cases h
        · cases b with
          | false =>
            simp only [Bool.false_eq_true, if_false, Option.some.injEq, Res.err.injEq] at h
            exact ⟨h.2.symm, x, y, tl, ⟨rfl, rfl, rfl⟩, hl, .inl ⟨hb, h.1.symm⟩⟩
          | true =>
            simp only [if_true, caseO_some, testItem_iff hv1] at h
            rcases h with ⟨_, h⟩ | ⟨b', hb', h⟩ | ⟨e1, hb', h⟩
            · cases h
            · cases b' with
              | false =>
                simp only [Bool.false_eq_true, if_false, Option.some.injEq, Res.err.injEq] at h
                exact ⟨h.2.symm, x, y, tl, ⟨rfl, rfl, rfl⟩, hl, .inr (.inr ⟨hb, .inl ⟨hb', h.1.symm⟩⟩)⟩
              | true => simp at h
            · simp only [Option.some.injEq, Res.err.injEq] at h
              obtain ⟨rfl, rfl⟩ := h
              exact ⟨rfl, x, y, tl, ⟨rfl, rfl, rfl⟩, hl, .inr (.inr ⟨hb, .inr hb'⟩)⟩
        · simp only [Option.some.injEq, Res.err.injEq] at h
          obtain ⟨rfl, rfl⟩ := h
          exact ⟨rfl, x, y, tl, ⟨rfl, rfl, rfl⟩, hl, .inr (.inl hb)⟩
      · rintro ⟨rfl, x', y', tl', ⟨rfl, rfl, rfl⟩, -, ⟨hb, rfl⟩ | hb | ⟨hb, ⟨hb', rfl⟩ | hb'⟩⟩
        · exact .inr (.inl ⟨false, hb, by simp⟩)
        · exact .inr (.inr ⟨e, hb, rfl⟩)
        · refine .inr (.inl ⟨true, hb, ?_⟩)
          simp only [if_true, caseO_some, testItem_iff hv1]
          exact .inr (.inl ⟨false, hb', by simp⟩)
        · refine .inr (.inl ⟨true, hb, ?_⟩)
          simp only [if_true, caseO_some, testItem_iff hv1]
          exact .inr (.inr ⟨e, hb', rfl⟩)
    · rw [if_neg hl]
      have hl' : blen (x :: y :: tl) < u.minLength + v.minLength := by omega
      simp only [hl', or_true, and_true, Option.some.injEq, Res.err.injEq]
      constructor
      · rintro ⟨rfl, rfl⟩; exact ⟨rfl, .inl rfl⟩
      · rintro ⟨rfl, rfl | ⟨x', y', tl', ⟨rfl, rfl, rfl⟩, h, -⟩⟩
        · exact ⟨rfl, rfl⟩
        · omega

example : Parses (β := Nat) G0 none ['a', 'c', 'b'] (.thenU (.item 'a') (.item 'b') .empty) 0
    (.err .neureThen 0) :=
  (C25_unit_then_fails (.item 'a') (.item 'b') .empty [] ['a', 'c', 'b'] rfl _ _).mpr
    ⟨rfl, .inr ⟨'a', 'c', ['b'], rfl, by decide, .inr (.inr
      ⟨itemGives_empty.mpr (by decide), .inl ⟨itemGives_empty.mpr (by decide), rfl⟩⟩)⟩⟩

/-- **C07 (`*_ltm` lists, matching).** All alternatives are tried, each from `o`, so it panics exactly
when some alternative does, all those before it having answered. -/
theorem C07_ltm_panic (e : Error) (items : List (Pat ι β × Option (Val β))) (o : Nat) :
    Parses G pol d (.ltm e items) o .panic ↔
      ∃ before it after, items = before ++ it :: after ∧
        (∀ x ∈ before, Fails G pol d x.1 o ∨ ∃ s ox, Runs G pol d x.1 o (.ok s ox)) ∧
        Runs G pol d it.1 o .panic := by
  simp only [parses_iff, runs_iff, Fails, parseL_ltm]
  have key : ∀ (items : List (Pat ι β × Option (Val β))) b o0,
      ltmLoop (matL G pol d) e o items b o0 = some .panic ↔
      ∃ before it after, items = before ++ it :: after ∧
        (∀ x ∈ before, (∃ e o', matL G pol d x.1 o = some (.err e o')) ∨
          ∃ s ox, matL G pol d x.1 o = some (.ok s ox)) ∧ matL G pol d it.1 o = some .panic := by
    intro items
    induction items with
    | nil => intro b o0; cases b <;> simp [ltmLoop]
    | cons it items ih =>
      intro b o0
      simp only [ltmLoop, caseR_some, ih]
      constructor
      · rintro (⟨h, -⟩ | ⟨s, o1, h, before, x, after, rfl, hb, hx⟩ | ⟨e1, o1, h, before, x, after, rfl, hb, hx⟩)
        · exact ⟨[], it, items, rfl, by simp, h⟩
        · refine ⟨it :: before, x, after, rfl, ?_, hx⟩
          intro y hy
          rcases List.mem_cons.mp hy with rfl | hy
          · exact .inr ⟨s, o1, h⟩
          · exact hb y hy
        · refine ⟨it :: before, x, after, rfl, ?_, hx⟩
          intro y hy
          rcases List.mem_cons.mp hy with rfl | hy
          · exact .inl ⟨e1, o1, h⟩
          · exact hb y hy
      · rintro ⟨before, x, after, heq, hb, hx⟩
        cases before with
        | nil =>
          simp only [List.nil_append, List.cons.injEq] at heq
          obtain ⟨rfl, rfl⟩ := heq
          exact .inl ⟨hx, trivial⟩
        | cons y before =>
          simp only [List.cons_append, List.cons.injEq] at heq
          obtain ⟨rfl, rfl⟩ := heq
          have hb' : ∀ z ∈ before, _ := fun z hz => hb z (List.mem_cons_of_mem _ hz)
          rcases hb it (by simp) with ⟨e1, o1, h⟩ | ⟨s, o1, h⟩
          · exact .inr (.inr ⟨e1, o1, h, before, x, after, rfl, hb', hx⟩)
          · exact .inr (.inl ⟨s, o1, h, before, x, after, rfl, hb', hx⟩)
  exact key items none o

/-- **C07 (`*_ltm` lists, constructing).** The same while building: the alternatives before the one
that panics have all been built, one after the other. -/
theorem C07_ltm_construct_panic (e : Error) (items : List (Pat ι β × Option (Val β))) (st : σ) (o : Nat) :
    Constructs G H pol d (.ltm e items) st o .panic ↔
      ∃ before it after outs st1 o1, items = before ++ it :: after ∧
        Attempts G H pol d o before outs st o st1 o1 ∧ Constructs G H pol d it.1 st1 o .panic := by
  have key : ∀ (items : List (Pat ι β × Option (Val β))) best stop st c,
      conLtm (conL G H pol d) e o items best stop st c = some .panic ↔
      ∃ before it after outs st1 o1, items = before ++ it :: after ∧
        Attempts G H pol d o before outs st c st1 o1 ∧ Constructs G H pol d it.1 st1 o .panic := by
    intro items
    induction items with
    | nil => intro best stop st c; cases best <;> simp [conLtm]
    | cons it items ih =>
      intro best stop st c
      simp only [conLtm, caseC_some]
      constructor
      · rintro (⟨h, -⟩ | ⟨v, st1, o1, h, h'⟩ | ⟨e1, st1, o1, h, h'⟩)
        · exact ⟨[], it, items, [], st, c, rfl, .nil _ _, (con_iff _ _ _ _).mpr h⟩
        · have : ∃ b s, conLtm (conL G H pol d) e o items b s st1 o1 = some .panic := by
            split at h'
            · exact ⟨_, _, h'⟩
            · exact ⟨_, _, h'⟩
          obtain ⟨b, s, h'⟩ := this
          obtain ⟨before, x, after, outs, st2, o2, rfl, ha, hx⟩ := (ih _ _ _ _).mp h'
          exact ⟨it :: before, x, after, _, st2, o2, rfl, .ok ((con_iff _ _ _ _).mpr h) ha, hx⟩
        · obtain ⟨before, x, after, outs, st2, o2, rfl, ha, hx⟩ := (ih _ _ _ _).mp h'
          exact ⟨it :: before, x, after, _, st2, o2, rfl, .err ((con_iff _ _ _ _).mpr h) ha, hx⟩
      · rintro ⟨before, x, after, outs, st2, o2, heq, ha, hx⟩
        cases ha with
        | nil =>
          simp only [List.nil_append, List.cons.injEq] at heq
          obtain ⟨rfl, rfl⟩ := heq
          exact .inl ⟨(con_iff _ _ _ _).mp hx, trivial⟩
        | ok h1 ha =>
          simp only [List.cons_append, List.cons.injEq] at heq
          obtain ⟨rfl, rfl⟩ := heq
          refine .inr (.inl ⟨_, _, _, (con_iff _ _ _ _).mp h1, ?_⟩)
          split <;> exact (ih _ _ _ _).mpr ⟨_, _, _, _, _, _, rfl, ha, hx⟩
        | err h1 ha =>
          simp only [List.cons_append, List.cons.injEq] at heq
          obtain ⟨rfl, rfl⟩ := heq
          exact .inr (.inr ⟨_, _, _, (con_iff _ _ _ _).mp h1, (ih _ _ _ _).mpr ⟨_, _, _, _, _, _, rfl, ha, hx⟩⟩)
  rw [con_iff, conL_ltm]
  exact key items none o st o

/-- An alternative that panics (a nested `ltm` leaves the position inside its own span). -/
example : Parses (β := Nat) G0 none ['b', 'a', 'c'] (.ltm .array [(.lit ['b'], none),
    (.thn (.ltm .array [(.lit ['b', 'a', 'c'], none), (.lit ['b'], none)]) (.lit ['a']), none)]) 0 .panic :=
  ⟨9, by decide⟩

end Neure
