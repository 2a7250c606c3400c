import Verif.LoopLemmas
import Verif.Demo
/-!
# C06–C12, C21, C33, C50 (matching mode): what each combinator means

`Parses G pol d p o r`: `p.try_parse(&mut ctx)` returns with `r`; it calls its
parts through `ctx.try_mat`, i.e. `Runs G pol d part …`.  On a plain context
(`pol = none`) `try_mat(p)` and `p.try_parse` are the same (`runs_plain`), so
all statements then also describe `try_mat`.  Every combinator gets a complete
description: when it succeeds and with what, when it fails and with what, when
it panics; hence also when it does not return.
-/

namespace Neure

set_option linter.unusedSectionVars false

open Demo

variable {ι β : Type} [Item ι] {G : Rules ι β} {pol : Option (Pat ι β)} {d : List ι}

/-- On a plain context `try_mat` is `try_parse` (`src/ctx/regex.rs:443-448`). -/
theorem runs_plain {p : Pat ι β} {o : Nat} {r : Res Span} :
    Runs G none d p o r ↔ Parses G none d p o r := Iff.rfl

/-! ## C06: ordered choice -/

/-- **C06 (`or`).** `a.or(b)`: `a`'s match if there is one, otherwise (only if
`a` fails) `b`'s match from the same offset; fails only if both fail, with `b`'s
error and the offset unchanged. -/
theorem C06_or (a b : Pat ι β) (o : Nat) :
    (∀ s o', Parses G pol d (.or a b) o (.ok s o') ↔
      Runs G pol d a o (.ok s o') ∨ (Fails G pol d a o ∧ Runs G pol d b o (.ok s o'))) ∧
    (∀ e o', Parses G pol d (.or a b) o (.err e o') ↔
      o' = o ∧ Fails G pol d a o ∧ ∃ o2, Runs G pol d b o (.err e o2)) ∧
    (Parses G pol d (.or a b) o .panic ↔
      Runs G pol d a o .panic ∨ (Fails G pol d a o ∧ Runs G pol d b o .panic)) := by
  simp only [parses_iff, runs_iff, Fails, parseL_or, caseR_some]
  refine ⟨fun s o' => ?_, fun e o' => ?_, ?_⟩
  · constructor
    · rintro (⟨_, h⟩ | ⟨_, _, h, h'⟩ | ⟨e1, o1, h1, ⟨_, h⟩ | ⟨_, _, h, h'⟩ | ⟨_, _, _, h⟩⟩)
      · cases h
      · cases h'; exact .inl h
      · cases h
      · cases h'; exact .inr ⟨⟨_, _, h1⟩, h⟩
      · cases h
    · rintro (h | ⟨⟨e1, o1, h1⟩, h⟩)
      · exact .inr (.inl ⟨_, _, h, rfl⟩)
      · exact .inr (.inr ⟨_, _, h1, .inr (.inl ⟨_, _, h, rfl⟩)⟩)
  · constructor
    · rintro (⟨_, h⟩ | ⟨_, _, h, h'⟩ | ⟨e1, o1, h1, ⟨_, h⟩ | ⟨_, _, h, h'⟩ | ⟨_, _, h', h⟩⟩)
      · cases h
      · cases h'
      · cases h
      · cases h'
      · cases h; exact ⟨rfl, ⟨_, _, h1⟩, _, h'⟩
    · rintro ⟨rfl, ⟨e1, o1, h1⟩, o2, h⟩
      exact .inr (.inr ⟨_, _, h1, .inr (.inr ⟨_, _, h, rfl⟩)⟩)
  · constructor
    · rintro (⟨h, _⟩ | ⟨_, _, h, h'⟩ | ⟨e1, o1, h1, ⟨h, _⟩ | ⟨_, _, h, h'⟩ | ⟨_, _, h', h⟩⟩)
      · exact .inl h
      · cases h'
      · exact .inr ⟨⟨_, _, h1⟩, h⟩
      · cases h'
      · cases h
    · rintro (h | ⟨⟨e1, o1, h1⟩, h⟩)
      · exact .inl ⟨h, trivial⟩
      · exact .inr (.inr ⟨_, _, h1, .inl ⟨h, trivial⟩⟩)

example : Fails (β := Nat) G0 none ['b'] (.lit ['a']) 0 ∧
    Parses (β := Nat) G0 none ['b'] (.or (.lit ['a']) (.lit ['b'])) 0 (.ok ⟨0, 1⟩ 1) :=
  ⟨⟨.literal, 0, 3, by decide⟩, 5, by decide⟩

/-- **C06 (lists).** `array`/`vec`/`slice` choices: the result is that of the
first listed alternative that matches; the choice fails, with its own error and
the offset unchanged, only if all alternatives fail. -/
theorem C06_choice (e : Error) (items : List (Pat ι β × Option (Val β))) (o : Nat) :
    (∀ s o', Parses G pol d (.choice e items) o (.ok s o') ↔
      ∃ before it after, items = before ++ it :: after ∧
        (∀ x ∈ before, Fails G pol d x.1 o) ∧ Runs G pol d it.1 o (.ok s o')) ∧
    (∀ e' o', Parses G pol d (.choice e items) o (.err e' o') ↔
      e' = e ∧ o' = o ∧ ∀ x ∈ items, Fails G pol d x.1 o) ∧
    (Parses G pol d (.choice e items) o .panic ↔
      ∃ before it after, items = before ++ it :: after ∧
        (∀ x ∈ before, Fails G pol d x.1 o) ∧ Runs G pol d it.1 o .panic) := by
  simp only [parses_iff, runs_iff, Fails, parseL_choice]
  -- one statement for all results
  have key : ∀ r, choiceLoop (matL G pol d) e o items o = some r ↔
      (r = .err e o ∧ ∀ x ∈ items, ∃ e' o', matL G pol d x.1 o = some (.err e' o')) ∨
      (∃ before it after, items = before ++ it :: after ∧
        (∀ x ∈ before, ∃ e' o', matL G pol d x.1 o = some (.err e' o')) ∧
        matL G pol d it.1 o = some r ∧ ∀ e' o', r ≠ .err e' o') := by
    induction items with
    | nil => intro r; simp [choiceLoop, eq_comm]
    | cons it items ih =>
      intro r
      simp only [choiceLoop, caseR_some, ih]
      constructor
      · rintro (⟨h, rfl⟩ | ⟨s, o1, h, h'⟩ | ⟨e1, o1, h1, ⟨rfl, h⟩ | ⟨b, x, a, rfl, hb, hx, hr⟩⟩)
        · exact .inr ⟨[], it, items, rfl, by simp, h, by simp⟩
        · cases h'; exact .inr ⟨[], it, items, rfl, by simp, h, by simp⟩
        · refine .inl ⟨rfl, fun x hx => ?_⟩
          rcases List.mem_cons.mp hx with rfl | hx
          · exact ⟨_, _, h1⟩
          · exact h x hx
        · refine .inr ⟨it :: b, x, a, rfl, fun y hy => ?_, hx, hr⟩
          rcases List.mem_cons.mp hy with rfl | hy
          · exact ⟨_, _, h1⟩
          · exact hb y hy
      · rintro (⟨rfl, h⟩ | ⟨b, x, a, hl, hb, hx, hr⟩)
        · obtain ⟨e1, o1, h1⟩ := h it (by simp)
          exact .inr (.inr ⟨e1, o1, h1, .inl ⟨rfl, fun x hx => h x (by simp [hx])⟩⟩)
        · cases b with
          | nil =>
            simp only [List.nil_append, List.cons.injEq] at hl
            obtain ⟨rfl, rfl⟩ := hl
            cases r with
            | ok s o' => exact .inr (.inl ⟨_, _, hx, rfl⟩)
            | err e' o' => exact absurd rfl (hr e' o')
            | panic => exact .inl ⟨hx, rfl⟩
          | cons y b =>
            simp only [List.cons_append, List.cons.injEq] at hl
            obtain ⟨rfl, rfl⟩ := hl
            obtain ⟨e1, o1, h1⟩ := hb it (by simp)
            exact .inr (.inr ⟨e1, o1, h1, .inr ⟨b, x, a, rfl, fun y hy => hb y (by simp [hy]), hx, hr⟩⟩)
  refine ⟨fun s o' => ?_, fun e' o' => ?_, ?_⟩
  · rw [key]; simp
  · rw [key]
    constructor
    · rintro (⟨h, h'⟩ | ⟨_, _, _, _, _, _, h⟩)
      · cases h; exact ⟨rfl, rfl, h'⟩
      · exact absurd rfl (h e' o')
    · rintro ⟨rfl, rfl, h⟩; exact .inl ⟨rfl, h⟩
  · rw [key]; simp

example : Parses (β := Nat) G0 none ['b', 'c']
    (.choice .array [(.lit ['a'], none), (.lit ['b'], none), (.lit ['b', 'c'], none)]) 0
      (.ok ⟨0, 1⟩ 1) := ⟨5, by decide⟩

/-! ## C07: longest match -/

/-- **C07 (`longest`).** `a.longest(b)` yields the longer of the two matches
(`a`'s on ties), leaving the offset `len` after the start; if one fails, the
other's match; fails only if both fail (with `b`'s error, offset unchanged). -/
theorem C07_longest (a b : Pat ι β) (o : Nat) :
    (∀ s o', Parses G pol d (.longest a b) o (.ok s o') ↔ o' = o + s.len ∧
      ((∃ oa sb ob, Runs G pol d a o (.ok s oa) ∧ Runs G pol d b o (.ok sb ob) ∧ sb.len ≤ s.len) ∨
       (∃ sa oa ob, Runs G pol d a o (.ok sa oa) ∧ Runs G pol d b o (.ok s ob) ∧ sa.len < s.len) ∨
       (∃ oa, Runs G pol d a o (.ok s oa) ∧ Fails G pol d b o) ∨
       (∃ ob, Fails G pol d a o ∧ Runs G pol d b o (.ok s ob)))) ∧
    (∀ e o', Parses G pol d (.longest a b) o (.err e o') ↔
      o' = o ∧ Fails G pol d a o ∧ ∃ o2, Runs G pol d b o (.err e o2)) ∧
    (Parses G pol d (.longest a b) o .panic ↔ Runs G pol d a o .panic ∨
      ((Matches G pol d a o ∨ Fails G pol d a o) ∧ Runs G pol d b o .panic)) := by
  simp only [parses_iff, runs_iff, Fails, Matches, parseL_longest, caseR_some]
  refine ⟨fun s o' => ?_, fun e o' => ?_, ?_⟩
  · constructor
    · rintro (⟨_, h⟩ | ⟨sa, oa, ha, ⟨_, h⟩ | ⟨sb, ob, hb, h⟩ | ⟨eb, ob, hb, h⟩⟩ |
        ⟨ea, oa, ha, ⟨_, h⟩ | ⟨sb, ob, hb, h⟩ | ⟨_, _, _, h⟩⟩)
      · cases h
      · cases h
      · split at h <;> cases h
        · exact ⟨rfl, .inl ⟨_, _, _, ha, hb, by omega⟩⟩
        · exact ⟨rfl, .inr (.inl ⟨_, _, _, ha, hb, by omega⟩)⟩
      · cases h; exact ⟨rfl, .inr (.inr (.inl ⟨_, ha, _, _, hb⟩))⟩
      · cases h
      · cases h; exact ⟨rfl, .inr (.inr (.inr ⟨_, ⟨_, _, ha⟩, hb⟩))⟩
      · cases h
    · rintro ⟨rfl, ⟨oa, sb, ob, ha, hb, hl⟩ | ⟨sa, oa, ob, ha, hb, hl⟩ | ⟨oa, ha, e, ob, hb⟩ |
        ⟨ob, ⟨e, oa, ha⟩, hb⟩⟩
      · exact .inr (.inl ⟨_, _, ha, .inr (.inl ⟨_, _, hb, by rw [if_pos hl]⟩)⟩)
      · exact .inr (.inl ⟨_, _, ha, .inr (.inl ⟨_, _, hb, by rw [if_neg (by omega)]⟩)⟩)
      · exact .inr (.inl ⟨_, _, ha, .inr (.inr ⟨_, _, hb, rfl⟩)⟩)
      · exact .inr (.inr ⟨_, _, ha, .inr (.inl ⟨_, _, hb, rfl⟩)⟩)
  · constructor
    · rintro (⟨_, h⟩ | ⟨sa, oa, ha, ⟨_, h⟩ | ⟨sb, ob, hb, h⟩ | ⟨eb, ob, hb, h⟩⟩ |
        ⟨ea, oa, ha, ⟨_, h⟩ | ⟨sb, ob, hb, h⟩ | ⟨eb, ob, hb, h⟩⟩)
      · cases h
      · cases h
      · split at h <;> cases h
      · cases h
      · cases h
      · cases h
      · cases h; exact ⟨rfl, ⟨_, _, ha⟩, _, hb⟩
    · rintro ⟨rfl, ⟨_, _, ha⟩, _, hb⟩
      exact .inr (.inr ⟨_, _, ha, .inr (.inr ⟨_, _, hb, rfl⟩)⟩)
  · constructor
    · rintro (⟨h, _⟩ | ⟨sa, oa, ha, ⟨h, _⟩ | ⟨sb, ob, hb, h⟩ | ⟨eb, ob, hb, h⟩⟩ |
        ⟨ea, oa, ha, ⟨h, _⟩ | ⟨sb, ob, hb, h⟩ | ⟨eb, ob, hb, h⟩⟩)
      · exact .inl h
      · exact .inr ⟨.inl ⟨_, _, ha⟩, h⟩
      · split at h <;> cases h
      · cases h
      · exact .inr ⟨.inr ⟨_, _, ha⟩, h⟩
      · cases h
      · cases h
    · rintro (h | ⟨⟨_, _, ha⟩ | ⟨_, _, ha⟩, h⟩)
      · exact .inl ⟨h, trivial⟩
      · exact .inr (.inl ⟨_, _, ha, .inl ⟨h, trivial⟩⟩)
      · exact .inr (.inr ⟨_, _, ha, .inl ⟨h, trivial⟩⟩)

/-- **C07 (`longest`, position).** On a plain context and for tidy alternatives
the offset after `a.longest(b)` is the end of the winning span. -/
theorem C07_longest_stops_at_winner (a b : Pat ι β) (ha : All G Tidy a) (hb : All G Tidy b) (o : Nat)
    (s : Span) (o' : Nat) (h : Runs G none d (.longest a b) o (.ok s o')) :
    s.beg = o ∧ s.beg + s.len = o' ∧
      (Runs G none d a o (.ok s o') ∨ Runs G none d b o (.ok s o')) ∧
      (∀ s' o2, Runs G none d a o (.ok s' o2) ∨ Runs G none d b o (.ok s' o2) → s'.len ≤ s.len) := by
  have ex : ∀ q, All G Tidy q → ∀ s o', Runs G none d q o (.ok s o') → s.beg = o ∧ o' = s.beg + s.len := by
    rintro q hq s o' ⟨n, hn⟩; exact exact_inv G n d q o hq _ hn
  have uq : ∀ q s1 o1 s2 o2, Runs G none d q o (.ok s1 o1) → Runs G none d q o (.ok s2 o2) →
      s1 = s2 := by
    intro q s1 o1 s2 o2 h1 h2; cases h1.unique h2; rfl
  have nf : ∀ q s1 o1, Runs G none d q o (.ok s1 o1) → ¬ Fails G none d q o := by
    rintro q s1 o1 h1 ⟨_, _, h2⟩; cases h1.unique h2
  rw [runs_plain, (C07_longest a b o).1] at h
  obtain ⟨rfl, ⟨oa, sb, ob, h1, h2, hl⟩ | ⟨sa, oa, ob, h1, h2, hl⟩ | ⟨oa, h1, h2⟩ | ⟨ob, h1, h2⟩⟩ := h
  · obtain ⟨e1, e2⟩ := ex a ha _ _ h1
    refine ⟨e1, by omega, .inl (by rw [show o + s.len = oa by omega]; exact h1), ?_⟩
    rintro s' o2 (h3 | h3)
    · rw [uq _ _ _ _ _ h3 h1]; exact Nat.le_refl _
    · rw [uq _ _ _ _ _ h3 h2]; omega
  · obtain ⟨e1, e2⟩ := ex b hb _ _ h2
    refine ⟨e1, by omega, .inr (by rw [show o + s.len = ob by omega]; exact h2), ?_⟩
    rintro s' o2 (h3 | h3)
    · rw [uq _ _ _ _ _ h3 h1]; omega
    · rw [uq _ _ _ _ _ h3 h2]; exact Nat.le_refl _
  · obtain ⟨e1, e2⟩ := ex a ha _ _ h1
    refine ⟨e1, by omega, .inl (by rw [show o + s.len = oa by omega]; exact h1), ?_⟩
    rintro s' o2 (h3 | h3)
    · rw [uq _ _ _ _ _ h3 h1]; exact Nat.le_refl _
    · exact absurd h2 (nf _ _ _ h3)
  · obtain ⟨e1, e2⟩ := ex b hb _ _ h2
    refine ⟨e1, by omega, .inr (by rw [show o + s.len = ob by omega]; exact h2), ?_⟩
    rintro s' o2 (h3 | h3)
    · exact absurd h1 (nf _ _ _ h3)
    · rw [uq _ _ _ _ _ h3 h2]; exact Nat.le_refl _

example : Runs (β := Nat) G0 none ['a', 'b'] (.longest (.lit ['a']) (.lit ['a', 'b'])) 0
    (.ok ⟨0, 2⟩ 2) := ⟨5, by decide⟩

/-- **C07 (`*_ltm` lists).** The span is that of the first alternative of
maximal length; all alternatives are tried; but the offset is the one the
*last* alternative's attempt left (so it is the end of the match only if that
happens to be so — `C02_ltm_counterexample`).  Fails only if all fail. -/
theorem C07_ltm (e : Error) (items : List (Pat ι β × Option (Val β))) (o : Nat) :
    (∀ s o', Parses G pol d (.ltm e items) o (.ok s o') ↔
      ∃ before it after, items = before ++ it :: after ∧
        (∃ oi, Runs G pol d it.1 o (.ok s oi)) ∧
        (∀ x ∈ before, Fails G pol d x.1 o ∨
          ∃ s' ox, Runs G pol d x.1 o (.ok s' ox) ∧ s'.len < s.len) ∧
        (∀ x ∈ after, Fails G pol d x.1 o ∨
          ∃ s' ox, Runs G pol d x.1 o (.ok s' ox) ∧ s'.len ≤ s.len) ∧
        (∃ init last, items = init ++ [last] ∧
          ((∃ s', Runs G pol d last.1 o (.ok s' o')) ∨ ∃ e', Runs G pol d last.1 o (.err e' o')))) ∧
    (∀ e' o', Parses G pol d (.ltm e items) o (.err e' o') ↔ e' = e ∧
      (∀ x ∈ items, Fails G pol d x.1 o) ∧
      ((items = [] ∧ o' = o) ∨
        ∃ init last e2, items = init ++ [last] ∧ Runs G pol d last.1 o (.err e2 o'))) := by
  simp only [parses_iff, runs_iff, Fails, parseL_ltm]
  let M := matL G pol d
  -- generalised over the best candidate so far
  let LastOff (items : List (Pat ι β × Option (Val β))) (o0 o' : Nat) : Prop :=
    (items = [] ∧ o' = o0) ∨ ∃ init last, items = init ++ [last] ∧
      ((∃ s', M last.1 o = some (.ok s' o')) ∨ ∃ e', M last.1 o = some (.err e' o'))
  let Bad (l : Nat) (x : Pat ι β × Option (Val β)) : Prop :=
    (∃ e' o', M x.1 o = some (.err e' o')) ∨ ∃ s' ox, M x.1 o = some (.ok s' ox) ∧ s'.len < l
  let Less (l : Nat) (x : Pat ι β × Option (Val β)) : Prop :=
    (∃ e' o', M x.1 o = some (.err e' o')) ∨ ∃ s' ox, M x.1 o = some (.ok s' ox) ∧ s'.len ≤ l
  have lastCons : ∀ it items o0 o1 o', ((∃ s', M it.1 o = some (.ok s' o1)) ∨
      ∃ e', M it.1 o = some (.err e' o1)) →
      (LastOff items o1 o' ↔ LastOff (it :: items) o0 o') := by
    intro it items o0 o1 o' hit
    constructor
    · rintro (⟨rfl, rfl⟩ | ⟨init, last, rfl, h⟩)
      · exact .inr ⟨[], it, rfl, hit⟩
      · exact .inr ⟨it :: init, last, rfl, h⟩
    · rintro (⟨h, _⟩ | ⟨init, last, hl, h⟩)
      · cases h
      · cases init with
        | nil =>
          simp only [List.nil_append, List.cons.injEq] at hl
          obtain ⟨rfl, rfl⟩ := hl
          refine .inl ⟨rfl, ?_⟩
          rcases hit with ⟨_, h1⟩ | ⟨_, h1⟩ <;> rcases h with ⟨_, h2⟩ | ⟨_, h2⟩ <;>
            rw [h1] at h2 <;> cases h2 <;> rfl
        | cons y init =>
          simp only [List.cons_append, List.cons.injEq] at hl
          obtain ⟨rfl, rfl⟩ := hl
          exact .inr ⟨init, last, rfl, h⟩
  have keyS : ∀ (items : List (Pat ι β × Option (Val β))) b o0 s o',
      ltmLoop M e o items (some b) o0 = some (.ok s o') ↔
      LastOff items o0 o' ∧ ((s = b ∧ ∀ x ∈ items, Less s.len x) ∨
        ∃ before it after, items = before ++ it :: after ∧ (∃ oi, M it.1 o = some (.ok s oi)) ∧
          b.len < s.len ∧ (∀ x ∈ before, Bad s.len x) ∧ (∀ x ∈ after, Less s.len x)) := by
    intro items
    induction items with
    | nil =>
      intro b o0 s o'
      simp only [ltmLoop, Option.some.injEq, Res.ok.injEq]
      constructor
      · rintro ⟨rfl, rfl⟩; exact ⟨.inl ⟨rfl, rfl⟩, .inl ⟨rfl, by simp⟩⟩
      · rintro ⟨⟨_, rfl⟩ | ⟨_, _, h, _⟩, ⟨rfl, _⟩ | ⟨_, _, _, h', _⟩⟩
        · exact ⟨rfl, rfl⟩
        · simp at h'
        · simp at h
        · simp at h
    | cons it items ih =>
      intro b o0 s o'
      simp only [ltmLoop, caseR_some]
      constructor
      · rintro (⟨_, h⟩ | ⟨s1, o1, h1, h⟩ | ⟨e1, o1, h1, h⟩)
        · cases h
        · split at h
          · next hlt =>
            simp only [decide_eq_true_eq] at hlt
            rw [ih] at h
            obtain ⟨hL, h⟩ := h
            refine ⟨(lastCons it items o0 o1 o' (.inl ⟨_, h1⟩)).mp hL, .inr ?_⟩
            rcases h with ⟨rfl, h⟩ | ⟨be, x, af, rfl, hx, hl, hb, ha⟩
            · exact ⟨[], it, items, rfl, ⟨_, h1⟩, hlt, by simp, h⟩
            · refine ⟨it :: be, x, af, rfl, hx, by omega, ?_, ha⟩
              intro y hy
              rcases List.mem_cons.mp hy with rfl | hy
              · exact .inr ⟨_, _, h1, hl⟩
              · exact hb y hy
          · next hlt =>
            simp only [decide_eq_true_eq] at hlt
            rw [ih] at h
            obtain ⟨hL, h⟩ := h
            refine ⟨(lastCons it items o0 o1 o' (.inl ⟨_, h1⟩)).mp hL, ?_⟩
            rcases h with ⟨rfl, h⟩ | ⟨be, x, af, rfl, hx, hl, hb, ha⟩
            · refine .inl ⟨rfl, fun y hy => ?_⟩
              rcases List.mem_cons.mp hy with rfl | hy
              · exact .inr ⟨_, _, h1, by omega⟩
              · exact h y hy
            · refine .inr ⟨it :: be, x, af, rfl, hx, hl, ?_, ha⟩
              intro y hy
              rcases List.mem_cons.mp hy with rfl | hy
              · exact .inr ⟨_, _, h1, by omega⟩
              · exact hb y hy
        · rw [ih] at h
          obtain ⟨hL, h⟩ := h
          refine ⟨(lastCons it items o0 o1 o' (.inr ⟨_, h1⟩)).mp hL, ?_⟩
          rcases h with ⟨rfl, h⟩ | ⟨be, x, af, rfl, hx, hl, hb, ha⟩
          · refine .inl ⟨rfl, fun y hy => ?_⟩
            rcases List.mem_cons.mp hy with rfl | hy
            · exact .inl ⟨_, _, h1⟩
            · exact h y hy
          · refine .inr ⟨it :: be, x, af, rfl, hx, hl, ?_, ha⟩
            intro y hy
            rcases List.mem_cons.mp hy with rfl | hy
            · exact .inl ⟨_, _, h1⟩
            · exact hb y hy
      · rintro ⟨hL, h⟩
        rcases h with ⟨rfl, h⟩ | ⟨be, x, af, hl, ⟨oi, hx⟩, hlt, hb, ha⟩
        · rcases h it (by simp) with ⟨e1, o1, h1⟩ | ⟨s1, o1, h1, hle⟩
          · refine .inr (.inr ⟨e1, o1, h1, ?_⟩)
            rw [ih]
            exact ⟨(lastCons it items o0 o1 o' (.inr ⟨_, h1⟩)).mpr hL,
              .inl ⟨rfl, fun y hy => h y (by simp [hy])⟩⟩
          · refine .inr (.inl ⟨s1, o1, h1, ?_⟩)
            rw [if_neg (by simp; omega), ih]
            exact ⟨(lastCons it items o0 o1 o' (.inl ⟨_, h1⟩)).mpr hL,
              .inl ⟨rfl, fun y hy => h y (by simp [hy])⟩⟩
        · cases be with
          | nil =>
            simp only [List.nil_append, List.cons.injEq] at hl
            obtain ⟨rfl, rfl⟩ := hl
            refine .inr (.inl ⟨s, oi, hx, ?_⟩)
            rw [if_pos (by simpa using hlt), ih]
            exact ⟨(lastCons it items o0 oi o' (.inl ⟨_, hx⟩)).mpr hL, .inl ⟨rfl, ha⟩⟩
          | cons y be =>
            simp only [List.cons_append, List.cons.injEq] at hl
            obtain ⟨rfl, rfl⟩ := hl
            rcases hb it (by simp) with ⟨e1, o1, h1⟩ | ⟨s1, o1, h1, hle⟩
            · refine .inr (.inr ⟨e1, o1, h1, ?_⟩)
              rw [ih]
              exact ⟨(lastCons it _ o0 o1 o' (.inr ⟨_, h1⟩)).mpr hL,
                .inr ⟨be, x, af, rfl, ⟨_, hx⟩, hlt, fun y hy => hb y (by simp [hy]), ha⟩⟩
            · refine .inr (.inl ⟨s1, o1, h1, ?_⟩)
              split
              · rw [ih]
                exact ⟨(lastCons it _ o0 o1 o' (.inl ⟨_, h1⟩)).mpr hL,
                  .inr ⟨be, x, af, rfl, ⟨_, hx⟩, hle, fun y hy => hb y (by simp [hy]), ha⟩⟩
              · rw [ih]
                exact ⟨(lastCons it _ o0 o1 o' (.inl ⟨_, h1⟩)).mpr hL,
                  .inr ⟨be, x, af, rfl, ⟨_, hx⟩, hlt, fun y hy => hb y (by simp [hy]), ha⟩⟩
  have errS : ∀ (items : List (Pat ι β × Option (Val β))) b o0 e' o',
      ltmLoop M e o items (some b) o0 ≠ some (.err e' o') := by
    intro items
    induction items with
    | nil => intro b o0 e' o'; simp [ltmLoop]
    | cons it items ih =>
      intro b o0 e' o'
      simp only [ltmLoop, ne_eq, caseR_some]
      rintro (⟨_, h⟩ | ⟨s1, o1, h1, h⟩ | ⟨e1, o1, h1, h⟩)
      · cases h
      · split at h <;> exact ih _ _ _ _ h
      · exact ih _ _ _ _ h
  have keyN : ∀ (items : List (Pat ι β × Option (Val β))) o0 s o',
      ltmLoop M e o items none o0 = some (.ok s o') ↔
        LastOff items o0 o' ∧
          ∃ before it after, items = before ++ it :: after ∧ (∃ oi, M it.1 o = some (.ok s oi)) ∧
            (∀ x ∈ before, Bad s.len x) ∧ (∀ x ∈ after, Less s.len x) := by
    intro items
    induction items with
    | nil => intro o0 s o'; simp [ltmLoop]
    | cons it items ih =>
      intro o0 s o'
      simp only [ltmLoop, caseR_some, if_true, keyS, ih]
      constructor
      · rintro (⟨_, h⟩ | ⟨s1, o1, h1, hL, h⟩ | ⟨e1, o1, h1, hL, be, x, af, rfl, hx, hb, ha⟩)
        · cases h
        · refine ⟨(lastCons it items o0 o1 o' (.inl ⟨_, h1⟩)).mp hL, ?_⟩
          rcases h with ⟨rfl, h⟩ | ⟨be, x, af, rfl, hx, hl, hb, ha⟩
          · exact ⟨[], it, items, rfl, ⟨_, h1⟩, by simp, h⟩
          · refine ⟨it :: be, x, af, rfl, hx, ?_, ha⟩
            intro y hy
            rcases List.mem_cons.mp hy with rfl | hy
            · exact .inr ⟨_, _, h1, hl⟩
            · exact hb y hy
        · refine ⟨(lastCons it _ o0 o1 o' (.inr ⟨_, h1⟩)).mp hL, it :: be, x, af, rfl, hx, ?_, ha⟩
          intro y hy
          rcases List.mem_cons.mp hy with rfl | hy
          · exact .inl ⟨_, _, h1⟩
          · exact hb y hy
      · rintro ⟨hL, be, x, af, hl, ⟨oi, hx⟩, hb, ha⟩
        cases be with
        | nil =>
          simp only [List.nil_append, List.cons.injEq] at hl
          obtain ⟨rfl, rfl⟩ := hl
          exact .inr (.inl ⟨s, oi, hx, (lastCons it _ o0 oi o' (.inl ⟨_, hx⟩)).mpr hL, .inl ⟨rfl, ha⟩⟩)
        | cons y be =>
          simp only [List.cons_append, List.cons.injEq] at hl
          obtain ⟨rfl, rfl⟩ := hl
          rcases hb it (by simp) with ⟨e1, o1, h1⟩ | ⟨s1, o1, h1, hle⟩
          · exact .inr (.inr ⟨e1, o1, h1, (lastCons it _ o0 o1 o' (.inr ⟨_, h1⟩)).mpr hL,
              be, x, af, rfl, ⟨_, hx⟩, fun y hy => hb y (by simp [hy]), ha⟩)
          · exact .inr (.inl ⟨s1, o1, h1, (lastCons it _ o0 o1 o' (.inl ⟨_, h1⟩)).mpr hL,
              .inr ⟨be, x, af, rfl, ⟨_, hx⟩, hle, fun y hy => hb y (by simp [hy]), ha⟩⟩)
  have errN : ∀ (items : List (Pat ι β × Option (Val β))) o0 e' o',
      ltmLoop M e o items none o0 = some (.err e' o') ↔
        e' = e ∧ LastOff items o0 o' ∧ ∀ x ∈ items, ∃ e1 o1, M x.1 o = some (.err e1 o1) := by
    intro items
    induction items with
    | nil =>
      intro o0 e' o'
      simp only [ltmLoop, Option.some.injEq, Res.err.injEq]
      constructor
      · rintro ⟨rfl, rfl⟩; exact ⟨rfl, .inl ⟨rfl, rfl⟩, by simp⟩
      · rintro ⟨rfl, ⟨_, rfl⟩ | ⟨_, _, h, _⟩, _⟩
        · exact ⟨rfl, rfl⟩
        · simp at h
    | cons it items ih =>
      intro o0 e' o'
      simp only [ltmLoop, caseR_some, if_true, ih]
      constructor
      · rintro (⟨_, h⟩ | ⟨s1, o1, h1, h⟩ | ⟨e1, o1, h1, rfl, hL, h⟩)
        · cases h
        · exact absurd h (errS _ _ _ _ _)
        · refine ⟨rfl, (lastCons it _ o0 o1 o' (.inr ⟨_, h1⟩)).mp hL, ?_⟩
          intro y hy
          rcases List.mem_cons.mp hy with rfl | hy
          · exact ⟨_, _, h1⟩
          · exact h y hy
      · rintro ⟨rfl, hL, h⟩
        obtain ⟨e1, o1, h1⟩ := h it (by simp)
        exact .inr (.inr ⟨e1, o1, h1, rfl, (lastCons it _ o0 o1 o' (.inr ⟨_, h1⟩)).mpr hL,
          fun y hy => h y (by simp [hy])⟩)
  refine ⟨fun s o' => (keyN items o s o').trans ?_, fun e' o' => (errN items o e' o').trans ?_⟩
  · constructor
    · rintro ⟨⟨rfl, _⟩ | hL, be, it, af, h, hx, hb, ha⟩
      · simp at h
      · exact ⟨be, it, af, h, hx, hb, ha, hL⟩
    · rintro ⟨be, it, af, h, hx, hb, ha, hL⟩
      exact ⟨.inr hL, be, it, af, h, hx, hb, ha⟩
  · constructor
    · rintro ⟨rfl, hL, h⟩
      refine ⟨rfl, h, ?_⟩
      rcases hL with hL | ⟨init, last, rfl, ⟨s', h'⟩ | ⟨e2, h'⟩⟩
      · exact .inl hL
      · obtain ⟨e1, o1, h1⟩ := h last (by simp)
        rw [h'] at h1; cases h1
      · exact .inr ⟨init, last, e2, rfl, h'⟩
    · rintro ⟨rfl, h, hL⟩
      refine ⟨rfl, ?_, h⟩
      rcases hL with hL | ⟨init, last, e2, rfl, h'⟩
      · exact .inl hL
      · exact .inr ⟨init, last, rfl, .inr ⟨e2, h'⟩⟩

/-- The first of the longest alternatives wins. -/
example : Runs (β := Nat) G0 none ['a', 'b', 'c']
    (.ltm .array [(.lit ['a'], none), (.lit ['a', 'b'], none)]) 0 (.ok ⟨0, 2⟩ 2) := ⟨5, by decide⟩

/-! ## C08: sequencing -/

theorem seq2_iff (mt : Pat ι β → Nat → Option (Res Span)) (a b : Pat ι β) (o : Nat) :
    (∀ s o', seq2 mt a b o = some (.ok s o') ↔
      ∃ s1 o1 s2, mt a o = some (.ok s1 o1) ∧ mt b o1 = some (.ok s2 o') ∧ Hull s1 s2 s) ∧
    (∀ e o', seq2 mt a b o = some (.err e o') ↔ o' = o ∧
      ((∃ o1, mt a o = some (.err e o1)) ∨
       ∃ s1 o1 o2, mt a o = some (.ok s1 o1) ∧ mt b o1 = some (.err e o2))) ∧
    (seq2 mt a b o = some .panic ↔ mt a o = some .panic ∨
      (∃ s1 o1, mt a o = some (.ok s1 o1) ∧ mt b o1 = some .panic) ∨
      (∃ s1 o1 s2 o2, mt a o = some (.ok s1 o1) ∧ mt b o1 = some (.ok s2 o2) ∧
        ∀ s, ¬ Hull s1 s2 s)) := by
  have nn : ∀ s1 s2 : Span, s1.addAssign s2 = none ↔ ∀ s, ¬ s1.addAssign s2 = some s := by
    intro s1 s2; rw [hull_none]; simp only [hull_iff]
  simp only [seq2, caseR_some, addK_some, hull_iff, nn]
  refine ⟨fun s o' => ?_, fun e o' => ?_, ?_⟩
  · constructor
    · rintro (⟨_, h⟩ | ⟨s1, o1, h1, ⟨_, h⟩ | ⟨s2, o2, h2, ⟨_, h⟩ | ⟨u, hu, h⟩⟩ | ⟨_, _, _, h⟩⟩ | ⟨_, _, _, h⟩)
        <;> cases h
      exact ⟨_, _, _, h1, h2, hu⟩
    · rintro ⟨s1, o1, s2, h1, h2, hu⟩
      exact .inr (.inl ⟨_, _, h1, .inr (.inl ⟨_, _, h2, .inr ⟨_, hu, rfl⟩⟩)⟩)
  · constructor
    · rintro (⟨_, h⟩ | ⟨s1, o1, h1, ⟨_, h⟩ | ⟨s2, o2, h2, ⟨_, h⟩ | ⟨u, hu, h⟩⟩ | ⟨_, _, h2, h⟩⟩ | ⟨_, _, h1, h⟩)
        <;> cases h
      · exact ⟨rfl, .inr ⟨_, _, _, h1, h2⟩⟩
      · exact ⟨rfl, .inl ⟨_, h1⟩⟩
    · rintro ⟨rfl, ⟨o1, h1⟩ | ⟨s1, o1, o2, h1, h2⟩⟩
      · exact .inr (.inr ⟨_, _, h1, rfl⟩)
      · exact .inr (.inl ⟨_, _, h1, .inr (.inr ⟨_, _, h2, rfl⟩)⟩)
  · constructor
    · rintro (⟨h1, h⟩ | ⟨s1, o1, h1, ⟨h2, h⟩ | ⟨s2, o2, h2, ⟨hn, h⟩ | ⟨u, hu, h⟩⟩ | ⟨_, _, h2, h⟩⟩ | ⟨_, _, h1, h⟩)
      · exact .inl h1
      · exact .inr (.inl ⟨_, _, h1, h2⟩)
      · exact .inr (.inr ⟨_, _, _, _, h1, h2, hn⟩)
      · cases h
      · cases h
      · cases h
    · rintro (h1 | ⟨s1, o1, h1, h2⟩ | ⟨s1, o1, s2, o2, h1, h2, hn⟩)
      · exact .inl ⟨h1, trivial⟩
      · exact .inr (.inl ⟨_, _, h1, .inl ⟨h2, trivial⟩⟩)
      · exact .inr (.inl ⟨_, _, h1, .inr (.inl ⟨_, _, h2, .inl ⟨hn, trivial⟩⟩)⟩)

/-- What "two parts in a row" means for a pattern `p`: success iff `a` matches
here and `b` matches where `a` ended, with the covering span; failure of either
part fails the whole with that part's error at the unchanged offset. -/
def InSequence2 (G : Rules ι β) (pol : Option (Pat ι β)) (d : List ι) (p a b : Pat ι β) (o : Nat) :
    Prop :=
  (∀ s o', Parses G pol d p o (.ok s o') ↔
      ∃ s1 o1 s2, Runs G pol d a o (.ok s1 o1) ∧ Runs G pol d b o1 (.ok s2 o') ∧ Hull s1 s2 s) ∧
  (∀ e o', Parses G pol d p o (.err e o') ↔ o' = o ∧
      ((∃ o1, Runs G pol d a o (.err e o1)) ∨
       ∃ s1 o1 o2, Runs G pol d a o (.ok s1 o1) ∧ Runs G pol d b o1 (.err e o2))) ∧
  (Parses G pol d p o .panic ↔ Runs G pol d a o .panic ∨
      (∃ s1 o1, Runs G pol d a o (.ok s1 o1) ∧ Runs G pol d b o1 .panic) ∨
      (∃ s1 o1 s2 o2, Runs G pol d a o (.ok s1 o1) ∧ Runs G pol d b o1 (.ok s2 o2) ∧
        ∀ s, ¬ Hull s1 s2 s))

/-- **C08 (`then`).** -/
theorem C08_then (a b : Pat ι β) (o : Nat) : InSequence2 G pol d (.thn a b) a b o := by
  simp only [InSequence2, parses_iff, runs_iff, parseL_thn]; exact seq2_iff _ a b o

/-- **C08 (`prefix`).** The prefix comes first. -/
theorem C08_prefix (x p : Pat ι β) (o : Nat) : InSequence2 G pol d (.pre x p) x p o := by
  simp only [InSequence2, parses_iff, runs_iff, parseL_pre]; exact seq2_iff _ x p o

/-- **C08 (`suffix`).** The suffix comes last. -/
theorem C08_suffix (p x : Pat ι β) (o : Nat) : InSequence2 G pol d (.suf p x) p x o := by
  simp only [InSequence2, parses_iff, runs_iff, parseL_suf]; exact seq2_iff _ p x o

/-- Three parts in a row. -/
def InSequence3 (G : Rules ι β) (pol : Option (Pat ι β)) (d : List ι) (p a b c : Pat ι β) (o : Nat) :
    Prop :=
  (∀ s o', Parses G pol d p o (.ok s o') ↔
      ∃ s1 o1 s2 o2 s3 s12, Runs G pol d a o (.ok s1 o1) ∧ Runs G pol d b o1 (.ok s2 o2) ∧
        Runs G pol d c o2 (.ok s3 o') ∧ Hull s1 s2 s12 ∧ Hull s12 s3 s) ∧
  (∀ e o', Parses G pol d p o (.err e o') ↔ o' = o ∧
      ((∃ o1, Runs G pol d a o (.err e o1)) ∨
       (∃ s1 o1 o2, Runs G pol d a o (.ok s1 o1) ∧ Runs G pol d b o1 (.err e o2)) ∨
       (∃ s1 o1 s2 o2 s12 o3, Runs G pol d a o (.ok s1 o1) ∧ Runs G pol d b o1 (.ok s2 o2) ∧
        Hull s1 s2 s12 ∧ Runs G pol d c o2 (.err e o3))))

/-- **C08 (`enclose`).** -/
theorem C08_enclose (a p c : Pat ι β) (o : Nat) : InSequence3 G pol d (.enclose a p c) a p c o := by
  simp only [InSequence3, parses_iff, runs_iff, parseL_enclose, caseR_some, addK_some, hull_iff]
  refine ⟨fun s o' => ?_, fun e o' => ?_⟩
  · constructor
    · rintro (⟨_, h⟩ | ⟨s1, o1, h1, ⟨_, h⟩ | ⟨s2, o2, h2, ⟨_, h⟩ | ⟨u, hu, ⟨_, h⟩ |
        ⟨s3, o3, h3, ⟨_, h⟩ | ⟨v, hv, h⟩⟩ | ⟨_, _, _, h⟩⟩⟩ | ⟨_, _, _, h⟩⟩ | ⟨_, _, _, h⟩) <;> cases h
      exact ⟨_, _, _, _, _, _, h1, h2, h3, hu, hv⟩
    · rintro ⟨s1, o1, s2, o2, s3, s12, h1, h2, h3, hu, hv⟩
      exact .inr (.inl ⟨_, _, h1, .inr (.inl ⟨_, _, h2, .inr ⟨_, hu, .inr (.inl
        ⟨_, _, h3, .inr ⟨_, hv, rfl⟩⟩)⟩⟩)⟩)
  · constructor
    · rintro (⟨_, h⟩ | ⟨s1, o1, h1, ⟨_, h⟩ | ⟨s2, o2, h2, ⟨_, h⟩ | ⟨u, hu, ⟨_, h⟩ |
        ⟨s3, o3, h3, ⟨_, h⟩ | ⟨v, hv, h⟩⟩ | ⟨_, _, h3, h⟩⟩⟩ | ⟨_, _, h2, h⟩⟩ | ⟨_, _, h1, h⟩) <;> cases h
      · exact ⟨rfl, .inr (.inr ⟨_, _, _, _, _, _, h1, h2, hu, h3⟩)⟩
      · exact ⟨rfl, .inr (.inl ⟨_, _, _, h1, h2⟩)⟩
      · exact ⟨rfl, .inl ⟨_, h1⟩⟩
    · rintro ⟨rfl, ⟨o1, h1⟩ | ⟨s1, o1, o2, h1, h2⟩ | ⟨s1, o1, s2, o2, s12, o3, h1, h2, hu, h3⟩⟩
      · exact .inr (.inr ⟨_, _, h1, rfl⟩)
      · exact .inr (.inl ⟨_, _, h1, .inr (.inr ⟨_, _, h2, rfl⟩)⟩)
      · exact .inr (.inl ⟨_, _, h1, .inr (.inl ⟨_, _, h2, .inr ⟨_, hu, .inr (.inr ⟨_, _, h3, rfl⟩)⟩⟩)⟩)

/-- **C08 (`sep_once`).** Left, separator, right in a row; the span starts at
the offset where matching began (also under a policy). -/
theorem C08_sep_once (a x b : Pat ι β) (o : Nat) :
    (∀ s o', Parses G pol d (.sepOnce a x b) o (.ok s o') ↔
      ∃ s1 o1 s2 o2 s3 t1 t2, Runs G pol d a o (.ok s1 o1) ∧ Runs G pol d x o1 (.ok s2 o2) ∧
        Runs G pol d b o2 (.ok s3 o') ∧ Hull ⟨o, 0⟩ s1 t1 ∧ Hull t1 s2 t2 ∧ Hull t2 s3 s) ∧
    (∀ e o', Parses G pol d (.sepOnce a x b) o (.err e o') ↔ o' = o ∧
      ((∃ o1, Runs G pol d a o (.err e o1)) ∨
       (∃ s1 o1 t1 o2, Runs G pol d a o (.ok s1 o1) ∧ Hull ⟨o, 0⟩ s1 t1 ∧
        Runs G pol d x o1 (.err e o2)) ∨
       (∃ s1 o1 s2 o2 t1 t2 o3, Runs G pol d a o (.ok s1 o1) ∧ Hull ⟨o, 0⟩ s1 t1 ∧
        Runs G pol d x o1 (.ok s2 o2) ∧ Hull t1 s2 t2 ∧ Runs G pol d b o2 (.err e o3)))) := by
  simp only [parses_iff, runs_iff, parseL_sepOnce, caseR_some, addK_some, hull_iff]
  refine ⟨fun s o' => ?_, fun e o' => ?_⟩
  · constructor
    · rintro (⟨_, h⟩ | ⟨s1, o1, h1, ⟨_, h⟩ | ⟨t, ht, ⟨_, h⟩ | ⟨s2, o2, h2, ⟨_, h⟩ | ⟨u, hu, ⟨_, h⟩ |
        ⟨s3, o3, h3, ⟨_, h⟩ | ⟨v, hv, h⟩⟩ | ⟨_, _, _, h⟩⟩⟩ | ⟨_, _, _, h⟩⟩⟩ | ⟨_, _, _, h⟩) <;> cases h
      exact ⟨_, _, _, _, _, _, _, h1, h2, h3, ht, hu, hv⟩
    · rintro ⟨s1, o1, s2, o2, s3, t1, t2, h1, h2, h3, ht, hu, hv⟩
      exact .inr (.inl ⟨_, _, h1, .inr ⟨_, ht, .inr (.inl ⟨_, _, h2, .inr ⟨_, hu, .inr (.inl
        ⟨_, _, h3, .inr ⟨_, hv, rfl⟩⟩)⟩⟩)⟩⟩)
  · constructor
    · rintro (⟨_, h⟩ | ⟨s1, o1, h1, ⟨_, h⟩ | ⟨t, ht, ⟨_, h⟩ | ⟨s2, o2, h2, ⟨_, h⟩ | ⟨u, hu, ⟨_, h⟩ |
        ⟨s3, o3, h3, ⟨_, h⟩ | ⟨v, hv, h⟩⟩ | ⟨_, _, h3, h⟩⟩⟩ | ⟨_, _, h2, h⟩⟩⟩ | ⟨_, _, h1, h⟩) <;> cases h
      · exact ⟨rfl, .inr (.inr ⟨_, _, _, _, _, _, _, h1, ht, h2, hu, h3⟩)⟩
      · exact ⟨rfl, .inr (.inl ⟨_, _, _, _, h1, ht, h2⟩)⟩
      · exact ⟨rfl, .inl ⟨_, h1⟩⟩
    · rintro ⟨rfl, ⟨o1, h1⟩ | ⟨s1, o1, t1, o2, h1, ht, h2⟩ | ⟨s1, o1, s2, o2, t1, t2, o3, h1, ht, h2, hu, h3⟩⟩
      · exact .inr (.inr ⟨_, _, h1, rfl⟩)
      · exact .inr (.inl ⟨_, _, h1, .inr ⟨_, ht, .inr (.inr ⟨_, _, h2, rfl⟩)⟩⟩)
      · exact .inr (.inl ⟨_, _, h1, .inr ⟨_, ht, .inr (.inl ⟨_, _, h2, .inr ⟨_, hu, .inr (.inr ⟨_, _, h3, rfl⟩)⟩⟩)⟩⟩)

/-- **C08, plain contexts.** For tidy parts on a plain context the result span
is simply the region from the old to the new offset, and nothing panics beyond
the parts themselves. -/
theorem C08_then_plain (a b : Pat ι β) (ha : All G Tidy a) (hb : All G Tidy b) (o : Nat) :
    (∀ s o', Runs G none d (.thn a b) o (.ok s o') ↔ s = ⟨o, o' - o⟩ ∧
      ∃ s1 o1 s2, Runs G none d a o (.ok s1 o1) ∧ Runs G none d b o1 (.ok s2 o')) ∧
    (Runs G none d (.thn a b) o .panic ↔ Runs G none d a o .panic ∨
      ∃ s1 o1, Runs G none d a o (.ok s1 o1) ∧ Runs G none d b o1 .panic) := by
  have ex : ∀ q, All G Tidy q → ∀ o s o', Runs G none d q o (.ok s o') →
      s.beg = o ∧ o' = s.beg + s.len := by
    rintro q hq o s o' ⟨n, hn⟩; exact exact_inv G n d q o hq _ hn
  obtain ⟨h1, -, h3⟩ := C08_then (G := G) (pol := none) (d := d) a b o
  refine ⟨fun s o' => ?_, ?_⟩
  · rw [runs_plain, h1]
    constructor
    · rintro ⟨s1, o1, s2, r1, r2, hh⟩
      obtain ⟨e1, e2⟩ := ex a ha _ _ _ r1
      obtain ⟨e3, e4⟩ := ex b hb _ _ _ r2
      obtain ⟨q1, q2, q3, q4⟩ := hh
      refine ⟨?_, s1, o1, s2, r1, r2⟩
      obtain ⟨sb, sl⟩ := s
      simp only [Span.mk.injEq] at *
      omega
    · rintro ⟨rfl, s1, o1, s2, r1, r2⟩
      obtain ⟨e1, e2⟩ := ex a ha _ _ _ r1
      obtain ⟨e3, e4⟩ := ex b hb _ _ _ r2
      refine ⟨s1, o1, s2, r1, r2, ?_⟩
      simp only [Hull]; omega
  · rw [runs_plain, h3]
    constructor
    · rintro (h | h | ⟨s1, o1, s2, o2, r1, r2, hh⟩)
      · exact .inl h
      · exact .inr h
      · obtain ⟨e1, e2⟩ := ex a ha _ _ _ r1
        obtain ⟨e3, e4⟩ := ex b hb _ _ _ r2
        exact absurd (show Hull s1 s2 ⟨s1.beg, s2.beg + s2.len - s1.beg⟩ by
          refine ⟨?_, ?_, ?_, ?_⟩ <;> first | omega | rfl | (dsimp only; omega)) (hh _)
    · rintro (h | h)
      · exact .inl h
      · exact .inr (.inl h)

example : Runs (β := Nat) G0 none ['(', 'a', ')'] (.enclose (.lit ['(']) (.lit ['a']) (.lit [')'])) 0
      (.ok ⟨0, 3⟩ 3) ∧
    Runs (β := Nat) G0 none ['k', ':', 'v'] (.sepOnce (.lit ['k']) (.lit [':']) (.lit ['v'])) 0
      (.ok ⟨0, 3⟩ 3) ∧
    Runs (β := Nat) G0 none ['a', 'c'] (.thn (.lit ['a']) (.lit ['b'])) 0 (.err .literal 0) :=
  ⟨⟨9, by decide⟩, ⟨9, by decide⟩, ⟨9, by decide⟩⟩

/-! ## C09: if_then -/

/-- **C09.** `a.if_then(t, b)`: needs `a`; if `t` then fails, the result is `a`
alone (offset right after `a`); if `t` matches, `b` must match after it and the
result covers all three; any other failure restores the offset. -/
theorem C09_if_then (a t b : Pat ι β) (o : Nat) :
    (∀ s o', Parses G pol d (.ifThen a t b) o (.ok s o') ↔
      (Runs G pol d a o (.ok s o') ∧ Fails G pol d t o') ∨
      ∃ s1 o1 s2 o2 s3 s12, Runs G pol d a o (.ok s1 o1) ∧ Runs G pol d t o1 (.ok s2 o2) ∧
        Runs G pol d b o2 (.ok s3 o') ∧ Hull s1 s2 s12 ∧ Hull s12 s3 s) ∧
    (∀ e o', Parses G pol d (.ifThen a t b) o (.err e o') ↔ o' = o ∧
      ((∃ o1, Runs G pol d a o (.err e o1)) ∨
       ∃ s1 o1 s2 o2 s12 o3, Runs G pol d a o (.ok s1 o1) ∧ Runs G pol d t o1 (.ok s2 o2) ∧
        Hull s1 s2 s12 ∧ Runs G pol d b o2 (.err e o3))) := by
  simp only [parses_iff, runs_iff, Fails, parseL_ifThen, caseR_some, addK_some, hull_iff]
  refine ⟨fun s o' => ?_, fun e o' => ?_⟩
  · constructor
    · rintro (⟨_, h⟩ | ⟨s1, o1, h1, ⟨_, h⟩ | ⟨s2, o2, h2, ⟨_, h⟩ | ⟨u, hu, ⟨_, h⟩ |
        ⟨s3, o3, h3, ⟨_, h⟩ | ⟨v, hv, h⟩⟩ | ⟨_, _, _, h⟩⟩⟩ | ⟨_, _, h2, h⟩⟩ | ⟨_, _, _, h⟩) <;> cases h
      · exact .inr ⟨_, _, _, _, _, _, h1, h2, h3, hu, hv⟩
      · exact .inl ⟨h1, _, _, h2⟩
    · rintro (⟨h1, e, o2, h2⟩ | ⟨s1, o1, s2, o2, s3, s12, h1, h2, h3, hu, hv⟩)
      · exact .inr (.inl ⟨_, _, h1, .inr (.inr ⟨_, _, h2, rfl⟩)⟩)
      · exact .inr (.inl ⟨_, _, h1, .inr (.inl ⟨_, _, h2, .inr ⟨_, hu, .inr (.inl
          ⟨_, _, h3, .inr ⟨_, hv, rfl⟩⟩)⟩⟩)⟩)
  · constructor
    · rintro (⟨_, h⟩ | ⟨s1, o1, h1, ⟨_, h⟩ | ⟨s2, o2, h2, ⟨_, h⟩ | ⟨u, hu, ⟨_, h⟩ |
        ⟨s3, o3, h3, ⟨_, h⟩ | ⟨v, hv, h⟩⟩ | ⟨_, _, h3, h⟩⟩⟩ | ⟨_, _, h2, h⟩⟩ | ⟨_, _, h1, h⟩) <;> cases h
      · exact ⟨rfl, .inr ⟨_, _, _, _, _, _, h1, h2, hu, h3⟩⟩
      · exact ⟨rfl, .inl ⟨_, h1⟩⟩
    · rintro ⟨rfl, ⟨o1, h1⟩ | ⟨s1, o1, s2, o2, s12, o3, h1, h2, hu, h3⟩⟩
      · exact .inr (.inr ⟨_, _, h1, rfl⟩)
      · exact .inr (.inl ⟨_, _, h1, .inr (.inl ⟨_, _, h2, .inr ⟨_, hu, .inr (.inr ⟨_, _, h3, rfl⟩)⟩⟩)⟩)

/-- `t` consumed `"-"` and then failed: its consumption is undone. -/
example : Runs (β := Nat) G0 none ['a', '-', 'x']
    (.ifThen (.lit ['a']) (.thn (.lit ['-']) (.lit ['b'])) (.lit ['c'])) 0 (.ok ⟨0, 1⟩ 1) ∧
    Runs (β := Nat) G0 none ['a', '-', 'x'] (.ifThen (.lit ['a']) (.lit ['-']) (.lit ['c'])) 0
      (.err .literal 0) := ⟨⟨9, by decide⟩, ⟨9, by decide⟩⟩

/-! ## C10: opt -/

/-- **C10.** `p.opt()` never fails: `p`'s match if `p` matches, otherwise the
empty match at the unchanged offset. -/
theorem C10_opt (p : Pat ι β) (o : Nat) :
    (∀ s o', Parses G pol d (.opt p) o (.ok s o') ↔
      Runs G pol d p o (.ok s o') ∨ (Fails G pol d p o ∧ s = ⟨o, 0⟩ ∧ o' = o)) ∧
    (∀ e o', ¬ Parses G pol d (.opt p) o (.err e o')) ∧
    (Parses G pol d (.opt p) o .panic ↔ Runs G pol d p o .panic) := by
  simp only [parses_iff, runs_iff, Fails, parseL_opt, caseR_some]
  refine ⟨fun s o' => ?_, fun e o' => ?_, ?_⟩
  · constructor
    · rintro (⟨_, h⟩ | ⟨s1, o1, h1, h⟩ | ⟨e, o1, h1, h⟩) <;> cases h
      · exact .inl h1
      · exact .inr ⟨⟨_, _, h1⟩, rfl, rfl⟩
    · rintro (h | ⟨⟨e, o1, h1⟩, rfl, rfl⟩)
      · exact .inr (.inl ⟨_, _, h, rfl⟩)
      · exact .inr (.inr ⟨_, _, h1, rfl⟩)
  · rintro (⟨_, h⟩ | ⟨s1, o1, h1, h⟩ | ⟨e, o1, h1, h⟩) <;> cases h
  · simp

example : Runs (β := Nat) G0 none ['x'] (.opt (.lit ['a'])) 0 (.ok ⟨0, 0⟩ 0) := ⟨5, by decide⟩

/-! ## C11: assertions -/

/-- **C11.** `assert(p)` succeeds exactly when `p` matches here, `not(p)`
exactly when `p` fails here; the result is the empty span at the unchanged
offset, and failures leave the offset unchanged too.  Any policy. -/
theorem C11_assert (p : Pat ι β) (value : Bool) (o : Nat) :
    (∀ s o', Parses G pol d (.assert p value) o (.ok s o') ↔ s = ⟨o, 0⟩ ∧ o' = o ∧
      (if value then Matches G pol d p o else Fails G pol d p o)) ∧
    (∀ e o', Parses G pol d (.assert p value) o (.err e o') ↔ o' = o ∧
      (if value then e = .assertTrue ∧ Fails G pol d p o
        else e = .assertFalse ∧ Matches G pol d p o)) ∧
    (Parses G pol d (.assert p value) o .panic ↔ Runs G pol d p o .panic) := by
  simp only [parses_iff, runs_iff, Fails, Matches, parseL_assert, caseR_some]
  refine ⟨fun s o' => ?_, fun e o' => ?_, ?_⟩
  · cases value
    · simp only [Bool.false_eq_true, if_false]
      constructor
      · rintro (⟨_, h⟩ | ⟨s1, o1, h1, h⟩ | ⟨e, o1, h1, h⟩) <;> cases h
        exact ⟨rfl, rfl, _, _, h1⟩
      · rintro ⟨rfl, rfl, e, o1, h1⟩; exact .inr (.inr ⟨_, _, h1, rfl⟩)
    · simp only [if_true]
      constructor
      · rintro (⟨_, h⟩ | ⟨s1, o1, h1, h⟩ | ⟨e, o1, h1, h⟩) <;> cases h
        exact ⟨rfl, rfl, _, _, h1⟩
      · rintro ⟨rfl, rfl, e, o1, h1⟩; exact .inr (.inl ⟨_, _, h1, rfl⟩)
  · cases value
    · simp only [Bool.false_eq_true, if_false]
      constructor
      · rintro (⟨_, h⟩ | ⟨s1, o1, h1, h⟩ | ⟨e, o1, h1, h⟩) <;> cases h
        exact ⟨rfl, rfl, _, _, h1⟩
      · rintro ⟨rfl, rfl, e, o1, h1⟩; exact .inr (.inl ⟨_, _, h1, rfl⟩)
    · simp only [if_true]
      constructor
      · rintro (⟨_, h⟩ | ⟨s1, o1, h1, h⟩ | ⟨e, o1, h1, h⟩) <;> cases h
        exact ⟨rfl, rfl, _, _, h1⟩
      · rintro ⟨rfl, rfl, e, o1, h1⟩; exact .inr (.inr ⟨_, _, h1, rfl⟩)
  · cases value <;> simp

/-- **C11 (double negation).** `not(not(p))` succeeds iff `assert(p)` does, with
the same result (plain context). -/
theorem C11_not_not (p : Pat ι β) (o : Nat) (s : Span) (o' : Nat) :
    Runs G none d (.assert (.assert p false) false) o (.ok s o') ↔
      Runs G none d (.assert p true) o (.ok s o') := by
  rw [runs_plain, runs_plain, (C11_assert _ false o).1, (C11_assert _ true o).1]
  simp only [Bool.false_eq_true, if_false, if_true]
  refine and_congr Iff.rfl (and_congr Iff.rfl ?_)
  constructor
  · rintro ⟨e, o1, h⟩
    rw [runs_plain, (C11_assert _ false o).2.1] at h
    simpa using h.2.2
  · rintro h
    refine ⟨.assertFalse, o, ?_⟩
    rw [runs_plain, (C11_assert _ false o).2.1]
    exact ⟨rfl, by simpa using h⟩

example : Runs (β := Nat) G0 none ['a', 'b'] (.assert (.lit ['a', 'b']) true) 0 (.ok ⟨0, 0⟩ 0) ∧
    Runs (β := Nat) G0 none ['a', 'b'] (.assert (.lit ['b']) false) 0 (.ok ⟨0, 0⟩ 0) :=
  ⟨⟨5, by decide⟩, ⟨5, by decide⟩⟩

/-! ## C12: primitives -/

/-- **C12.** `start`, `end`, `empty`, `fail`, `consume_all` from any offset. -/
theorem C12_anchors (o : Nat) (r : Res Span) :
    (Parses G pol d .start o r ↔ r = if o = 0 then .ok ⟨0, 0⟩ 0 else .err .anchorStart o) ∧
    (Parses G pol d .anchorEnd o r ↔ r = if o = blen d then .ok ⟨o, 0⟩ o else .err .anchorEnd o) ∧
    (Parses G pol d .empty o r ↔ r = .ok ⟨o, 0⟩ o) ∧
    (Parses G pol d .fail o r ↔ r = .err .fail o) := by
  simp only [parses_iff, parseL_start, parseL_anchorEnd, parseL_empty, parseL_fail]
  refine ⟨?_, ?_, ?_, ?_⟩
  · split
    · next h => subst h; simp [eq_comm]
    · simp [eq_comm]
  · split <;> simp [eq_comm]
  · simp [eq_comm]
  · simp [eq_comm]

/-- **C12 (`consume`, `consume_all`).** From an in-bounds offset `consume(n)`
matches exactly `n` bytes iff `n` bytes remain; `consume_all` takes the rest. -/
theorem C12_consume (n o : Nat) (ho : o ≤ blen d) (r : Res Span) :
    (Parses G pol d (.consume n) o r ↔
      r = if o + n ≤ blen d then .ok ⟨o, n⟩ (o + n) else .err .consume o) ∧
    (Parses G pol d .consumeAll o r ↔ r = .ok ⟨o, blen d - o⟩ (blen d)) := by
  simp only [parses_iff, parseL_consume, parseL_consumeAll, consumeParse, remK, if_pos ho, newSpanInc]
  refine ⟨?_, ?_⟩
  · by_cases h : o + n ≤ blen d
    · rw [if_pos h, if_pos (by omega)]; simp [eq_comm]
    · rw [if_neg h, if_neg (by omega)]; simp [eq_comm]
  · rw [Nat.add_sub_cancel' ho]; simp [eq_comm]

/-- **C12 (literal).** At a boundary (`d = pre ++ rest`, `o` the length of
`pre`) a literal matches iff the remaining input begins with it, consuming
exactly it. -/
theorem C12_literal (pre rest l : List ι) (hd : d = pre ++ rest) (r : Res Span) :
    (Parses G pol d (.lit l) (blen pre) r ↔
      ((∃ t, rest = l ++ t) ∧ r = .ok ⟨blen pre, blen l⟩ (blen pre + blen l)) ∨
      ((¬ ∃ t, rest = l ++ t) ∧ r = .err .literal (blen pre))) := by
  subst hd
  simp only [parses_iff, parseL_lit, litParse, remK]
  have h0 : origAt (pre ++ rest) (blen pre) = .ok rest := origAt_ok.mpr (dropB_append _ _)
  rw [if_pos (by simp), h0]
  have hb : blen (pre ++ rest) - blen pre = blen rest := by simp
  rw [hb]
  by_cases hp : ∃ t, rest = l ++ t
  · obtain ⟨t, rfl⟩ := hp
    rw [if_pos (by simp)]
    have : l.isPrefixOf (l ++ t) = true := by simp [List.isPrefixOf_iff_prefix]
    simp [caseO, this, newSpanInc, eq_comm]
  · have : l.isPrefixOf rest = false := by
      rw [Bool.eq_false_iff, ne_eq, List.isPrefixOf_iff_prefix]
      rintro ⟨t, ht⟩; exact hp ⟨t, ht.symm⟩
    simp only [hp, not_false_iff, true_and, false_and, false_or]
    split
    · simp [caseO, this, eq_comm]
    · simp [eq_comm]

example : Runs (β := Nat) G0 none ['x', 'é', 'b'] (.lit ['é']) 1 (.ok ⟨1, 2⟩ 3) ∧
    Runs (β := Nat) G0 none [(1 : UInt8), 2, 3] (.consume 2) 1 (.ok ⟨1, 2⟩ 3) :=
  ⟨⟨3, by decide⟩, ⟨3, by decide⟩⟩

/-! ## C21 (matching mode): dynamic patterns -/

/-- **C21 (`into_regex_builder`).** The pattern computed from the first match is
matched where the closure left the offset; only the second span is returned.
If either pattern fails the offset is restored; if the *closure* fails it is
left where the closure left it. -/
theorem C21_regex_builder (p : Pat ι β) (f : List ι → Nat → Span → Res (Pat ι β)) (o : Nat) :
    (∀ s o', Parses G pol d (.build p f) o (.ok s o') ↔
      ∃ s1 o1 q o2, Runs G pol d p o (.ok s1 o1) ∧ f d o1 s1 = .ok q o2 ∧
        Runs G pol d q o2 (.ok s o')) ∧
    (∀ e o', Parses G pol d (.build p f) o (.err e o') ↔
      (o' = o ∧ ∃ o1, Runs G pol d p o (.err e o1)) ∨
      (o' = o ∧ ∃ s1 o1 q o2 o3, Runs G pol d p o (.ok s1 o1) ∧ f d o1 s1 = .ok q o2 ∧
        Runs G pol d q o2 (.err e o3)) ∨
      (∃ s1 o1, Runs G pol d p o (.ok s1 o1) ∧ f d o1 s1 = .err e o')) := by
  simp only [parses_iff, runs_iff, parseL_build, caseR_some, Option.some.injEq]
  refine ⟨fun s o' => ?_, fun e o' => ?_⟩
  · constructor
    · rintro (⟨_, h⟩ | ⟨s1, o1, h1, ⟨_, h⟩ | ⟨q, o2, h2, ⟨_, h⟩ | ⟨s3, o3, h3, h⟩ | ⟨_, _, _, h⟩⟩ |
        ⟨_, _, _, h⟩⟩ | ⟨_, _, _, h⟩) <;> cases h
      exact ⟨_, _, _, _, h1, h2, h3⟩
    · rintro ⟨s1, o1, q, o2, h1, h2, h3⟩
      exact .inr (.inl ⟨_, _, h1, .inr (.inl ⟨_, _, h2, .inr (.inl ⟨_, _, h3, rfl⟩)⟩)⟩)
  · constructor
    · rintro (⟨_, h⟩ | ⟨s1, o1, h1, ⟨_, h⟩ | ⟨q, o2, h2, ⟨_, h⟩ | ⟨s3, o3, h3, h⟩ | ⟨_, _, h3, h⟩⟩ |
        ⟨_, _, h2, h⟩⟩ | ⟨_, _, h1, h⟩) <;> cases h
      · exact .inr (.inl ⟨rfl, _, _, _, _, _, h1, h2, h3⟩)
      · exact .inr (.inr ⟨_, _, h1, h2⟩)
      · exact .inl ⟨rfl, _, h1⟩
    · rintro (⟨rfl, o1, h1⟩ | ⟨rfl, s1, o1, q, o2, o3, h1, h2, h3⟩ | ⟨s1, o1, h1, h2⟩)
      · exact .inr (.inr ⟨_, _, h1, rfl⟩)
      · exact .inr (.inl ⟨_, _, h1, .inr (.inl ⟨_, _, h2, .inr (.inr ⟨_, _, h3, rfl⟩)⟩)⟩)
      · exact .inr (.inl ⟨_, _, h1, .inr (.inr ⟨_, _, h2, rfl⟩)⟩)

/-- A length-prefixed field: the first byte says how many bytes follow. -/
example : Runs (β := Nat) G0 none [(2 : UInt8), 10, 11, 12]
    (.build (.consume 1) fun d o s => .ok (.consume (((d[s.beg]?).map UInt8.toNat).getD 0)) o) 0
      (.ok ⟨1, 2⟩ 3) := ⟨5, rfl⟩

/-! ## C33: recursion -/

/-- **C33.** A recursive handle behaves exactly as the pattern stored in its
cell: same results (including panics and non-termination), under any policy,
called directly or through `try_mat`.  An uninitialised handle reports
`Error::Option` and does not move. -/
theorem C33_cell_is_its_content (i : Nat) (o : Nat) :
    (∀ q, G i = some q → ∀ r, (Parses G pol d (.cell i) o r ↔ Parses G pol d q o r) ∧
      (Runs G pol d (.cell i) o r ↔ Runs G pol d q o r)) ∧
    (G i = none → ∀ r, Parses G pol d (.cell i) o r ↔ r = .err .option o) := by
  have e1 : ∀ q, G i = some q → ∀ o, parseL G pol d (.cell i) o = parseL G pol d q o := by
    intro q hq o; rw [parseL_cell, hq]
  refine ⟨fun q hq r => ⟨?_, ?_⟩, fun hn r => ?_⟩
  · rw [parses_iff, parses_iff, e1 q hq]
  · rw [runs_iff, runs_iff]
    cases pol with
    | none => rw [matL_none, matL_none, e1 q hq]
    | some w => rw [matL_some, matL_some]; simp only [e1 q hq]
  · rw [parses_iff, parseL_cell, hn]; simp [eq_comm]

/-- Unfolding: a context made of `cell 0` matches nested parentheses like its
body does. -/
example : GP 0 = some parens ∧ Runs GP none ['(', '(', ')', ')'] (.cell 0) 0 (.ok ⟨0, 4⟩ 4) :=
  ⟨rfl, 20, by decide⟩

/-! ## C50 (matching mode): branch -/

/-- **C50.** `branch(test, p, q)` evaluates the test on the unchanged context and
then behaves as the selected pattern, restoring the offset if that fails; an
error of the test is returned at the unchanged offset. -/
theorem C50_branch (t : List ι → Nat → Out Bool) (p q : Pat ι β) (o : Nat) :
    (∀ s o', Parses G pol d (.branch t p q) o (.ok s o') ↔
      (t d o = .ok true ∧ Runs G pol d p o (.ok s o')) ∨
      (t d o = .ok false ∧ Runs G pol d q o (.ok s o'))) ∧
    (∀ e o', Parses G pol d (.branch t p q) o (.err e o') ↔ o' = o ∧
      (t d o = .err e ∨
       (t d o = .ok true ∧ ∃ o1, Runs G pol d p o (.err e o1)) ∨
       (t d o = .ok false ∧ ∃ o1, Runs G pol d q o (.err e o1)))) := by
  simp only [parses_iff, runs_iff, parseL_branch]
  cases ht : t d o with
  | ok b =>
    simp only [caseO, caseR_some]
    cases b
    · simp only [Bool.false_eq_true, if_false, Out.ok.injEq, false_and, true_and, false_or]
      refine ⟨fun s o' => ?_, fun e o' => ?_⟩
      · constructor
        · rintro (⟨_, h⟩ | ⟨s1, o1, h1, h⟩ | ⟨e, o1, h1, h⟩) <;> cases h; exact h1
        · intro h; exact .inr (.inl ⟨_, _, h, rfl⟩)
      · constructor
        · rintro (⟨_, h⟩ | ⟨s1, o1, h1, h⟩ | ⟨e, o1, h1, h⟩) <;> cases h
          exact ⟨rfl, .inr ⟨_, h1⟩⟩
        · rintro ⟨rfl, h | ⟨o1, h1⟩⟩
          · cases h
          · exact .inr (.inr ⟨_, _, h1, rfl⟩)
    · simp only [if_true, Out.ok.injEq, Bool.true_eq_false, false_and, true_and, or_false]
      refine ⟨fun s o' => ?_, fun e o' => ?_⟩
      · constructor
        · rintro (⟨_, h⟩ | ⟨s1, o1, h1, h⟩ | ⟨e, o1, h1, h⟩) <;> cases h; exact h1
        · intro h; exact .inr (.inl ⟨_, _, h, rfl⟩)
      · constructor
        · rintro (⟨_, h⟩ | ⟨s1, o1, h1, h⟩ | ⟨e, o1, h1, h⟩) <;> cases h
          exact ⟨rfl, .inr ⟨_, h1⟩⟩
        · rintro ⟨rfl, h | ⟨o1, h1⟩⟩
          · cases h
          · exact .inr (.inr ⟨_, _, h1, rfl⟩)
  | err e1 =>
    simp only [caseO, Option.some.injEq, reduceCtorEq, false_and, or_false, iff_self, implies_true,
      true_and, Res.err.injEq, Out.err.injEq]
    intro e o'
    constructor
    · rintro ⟨rfl, rfl⟩; exact ⟨rfl, rfl⟩
    · rintro ⟨rfl, rfl⟩; exact ⟨rfl, rfl⟩
  | panic => simp [caseO]

example : Runs (β := Nat) G0 none ['b'] (.branch (fun _ o => .ok (decide (o = 0))) (.lit ['b']) .fail) 0
    (.ok ⟨0, 1⟩ 1) := ⟨5, by decide⟩

end Neure
