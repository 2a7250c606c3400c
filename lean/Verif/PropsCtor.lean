import Verif.CtorText
import Verif.PropsCtorComb
/-!
# C06/C07 (lists, constructing), C19, C20, C46

`Constructs G H pol d p st o r`: `p.construct(&mut ctx, &mut handler)` returns
with `r`, the handler being in state `st` before.
-/

namespace Neure

set_option linter.unusedSectionVars false
set_option linter.unusedSimpArgs false

open Demo

variable {ι β σ : Type} [Item ι] {G : Rules ι β} {H : Handler ι β σ} {pol : Option (Pat ι β)}
  {d : List ι}

/-! ## C06: lists of alternatives -/

theorem tagged_eq (k : Option (Val β)) (v : Val β) : tagged k v = altValue k v := by
  cases k <;> rfl

/-- **C06 (lists, constructing).** The value is that of the first alternative
that can be constructed, those before it having failed; if all fail, the list's
own error with the offset unchanged. -/
theorem C06_choice_construct (e : Error) (items : List (Pat ι β × Option (Val β))) (st : σ) (o : Nat) :
    (∀ v st' o', Constructs G H pol d (.choice e items) st o (.ok v st' o') ↔
      ∃ before it after w st1 c, items = before ++ it :: after ∧
        Attempts G H pol d o before (before.map fun _ => none) st o st1 c ∧
        Constructs G H pol d it.1 st1 o (.ok w st' o') ∧ v = altValue it.2 w) ∧
    (∀ e' st' o', Constructs G H pol d (.choice e items) st o (.err e' st' o') ↔
      e' = e ∧ o' = o ∧ ∃ c, Attempts G H pol d o items (items.map fun _ => none) st o st' c) ∧
    (Constructs G H pol d (.choice e items) st o .panic ↔
      ∃ before it after st1 c, items = before ++ it :: after ∧
        Attempts G H pol d o before (before.map fun _ => none) st o st1 c ∧
        Constructs G H pol d it.1 st1 o .panic) := by
  have drop : ∀ {items : List (Pat ι β × Option (Val β))} {outs st c st' c'} (x : Nat),
      Attempts G H pol d o items outs st c st' c' → ∃ c', Attempts G H pol d o items outs st x st' c' := by
    intro items outs st c st' c' x h
    cases h with
    | nil => exact ⟨x, .nil _ _⟩
    | ok h1 h2 => exact ⟨_, .ok h1 h2⟩
    | err h1 h2 => exact ⟨_, .err h1 h2⟩
  have key : ∀ r, conChoice (conL G H pol d) e o items st o = some r ↔
      (∃ st' c, r = .err e st' o ∧ Attempts G H pol d o items (items.map fun _ => none) st o st' c) ∨
      (∃ before it after st1 c, items = before ++ it :: after ∧
        Attempts G H pol d o before (before.map fun _ => none) st o st1 c ∧
        ((∃ w st' o', r = .ok (altValue it.2 w) st' o' ∧ Constructs G H pol d it.1 st1 o (.ok w st' o')) ∨
         (r = .panic ∧ Constructs G H pol d it.1 st1 o .panic))) := by
    induction items generalizing st with
    | nil =>
      intro r
      simp only [conChoice, Option.some.injEq]
      constructor
      · rintro rfl; exact .inl ⟨_, _, rfl, .nil _ _⟩
      · rintro (⟨st', c, rfl, h⟩ | ⟨b, it, a, _, _, h, _⟩)
        · cases h; rfl
        · simp at h
    | cons it items ih =>
      intro r
      simp only [conChoice, tagged_eq, caseC_some, ih]
      constructor
      · rintro (⟨h, rfl⟩ | ⟨v, st1, o1, h, h'⟩ | ⟨e1, st1, o1, h1, ⟨st', c, rfl, h⟩ |
          ⟨b, x, a, st2, c, rfl, hb, hx⟩⟩)
        · exact .inr ⟨[], it, items, st, o, rfl, .nil _ _, .inr ⟨rfl, (con_iff _ _ _ _).mpr h⟩⟩
        · cases h'
          exact .inr ⟨[], it, items, st, o, rfl, .nil _ _, .inl ⟨_, _, _, rfl, (con_iff _ _ _ _).mpr h⟩⟩
        · obtain ⟨c', hc'⟩ := drop o1 h
          exact .inl ⟨_, _, rfl, .err ((con_iff _ _ _ _).mpr h1) hc'⟩
        · obtain ⟨c', hc'⟩ := drop o1 hb
          exact .inr ⟨it :: b, x, a, st2, c', rfl, .err ((con_iff _ _ _ _).mpr h1) hc', hx⟩
      · rintro (⟨st', c, rfl, h⟩ | ⟨b, x, a, st2, c, hl, hb, hx⟩)
        · cases h with
          | err h1 h2 =>
            obtain ⟨c', hc'⟩ := drop o h2
            exact .inr (.inr ⟨_, _, _, (con_iff _ _ _ _).mp h1, .inl ⟨_, _, rfl, hc'⟩⟩)
        · cases b with
          | nil =>
            simp only [List.nil_append, List.cons.injEq] at hl
            obtain ⟨rfl, rfl⟩ := hl
            cases hb
            rcases hx with ⟨w, st', o', rfl, h⟩ | ⟨rfl, h⟩
            · exact .inr (.inl ⟨_, _, _, (con_iff _ _ _ _).mp h, rfl⟩)
            · exact .inl ⟨(con_iff _ _ _ _).mp h, rfl⟩
          | cons y b =>
            simp only [List.cons_append, List.cons.injEq] at hl
            obtain ⟨rfl, rfl⟩ := hl
            cases hb with
            | err h1 h2 =>
              obtain ⟨c', hc'⟩ := drop o h2
              exact .inr (.inr ⟨_, _, _, (con_iff _ _ _ _).mp h1, .inr ⟨b, x, a, _, _, rfl, hc', hx⟩⟩)
  refine ⟨fun v st' o' => ?_, fun e' st' o' => ?_, ?_⟩
  · rw [con_iff, conL_choice, key]
    constructor
    · rintro (⟨_, _, h, _⟩ | ⟨b, x, a, st1, c, h1, h2, ⟨w, _, _, h, h3⟩ | ⟨h, _⟩⟩)
      · cases h
      · cases h; exact ⟨b, x, a, w, st1, c, h1, h2, h3, rfl⟩
      · cases h
    · rintro ⟨b, x, a, w, st1, c, h1, h2, h3, rfl⟩
      exact .inr ⟨b, x, a, st1, c, h1, h2, .inl ⟨_, _, _, rfl, h3⟩⟩
  · rw [con_iff, conL_choice, key]
    constructor
    · rintro (⟨_, c, h, h'⟩ | ⟨b, x, a, st1, c, h1, h2, ⟨w, _, _, h, h3⟩ | ⟨h, _⟩⟩)
      · cases h; exact ⟨rfl, rfl, c, h'⟩
      · cases h
      · cases h
    · rintro ⟨rfl, rfl, c, h⟩; exact .inl ⟨_, _, rfl, h⟩
  · rw [con_iff, conL_choice, key]
    constructor
    · rintro (⟨_, c, h, h'⟩ | ⟨b, x, a, st1, c, h1, h2, ⟨w, _, _, h, h3⟩ | ⟨_, h⟩⟩)
      · cases h
      · cases h
      · exact ⟨b, x, a, st1, c, h1, h2, h⟩
    · rintro ⟨b, x, a, st1, c, h1, h2, h3⟩
      exact .inr ⟨b, x, a, st1, c, h1, h2, .inr ⟨rfl, h3⟩⟩

example : Constructs (σ := Nat) G0 lenH none ['b', 'c']
    (.choice .array [(.lit ['a'], some (.base 1)), (.lit ['b'], some (.base 2)), (.lit ['b', 'c'], some (.base 3))])
      0 0 (.ok (.pair (.base 1) (.base 2)) 1 1) := ⟨5, by decide⟩

/-! ## C07: `*_ltm` lists -/

/-- The winner among the outcomes `outs`: the first of those reaching furthest,
strictly beyond `o`. -/
def Wins (o : Nat) (outs : List (Option (Val β × Nat))) (v : Val β) : Prop :=
  ∃ before after k, outs = before ++ some (v, k) :: after ∧ o < k ∧
    (∀ w j, some (w, j) ∈ before → j < k) ∧ (∀ w j, some (w, j) ∈ after → j ≤ k)

/-- **C07 (`*_ltm` lists, constructing).** All alternatives are tried from `o`;
the value is that of the first among those reaching furthest, provided that is
beyond `o`; the offset afterwards is the one the *last* attempt left. -/
theorem C07_ltm_construct (e : Error) (items : List (Pat ι β × Option (Val β))) (st : σ) (o : Nat) :
    (∀ v st' o', Constructs G H pol d (.ltm e items) st o (.ok v st' o') ↔
      ∃ outs, Attempts G H pol d o items outs st o st' o' ∧ Wins o outs v) ∧
    (∀ e' st' o', Constructs G H pol d (.ltm e items) st o (.err e' st' o') ↔
      e' = e ∧ ∃ outs, Attempts G H pol d o items outs st o st' o' ∧
        ∀ w j, some (w, j) ∈ outs → j ≤ o) := by
  have key : ∀ (items : List (Pat ι β × Option (Val β))) best stop st c r,
      conLtm (conL G H pol d) e o items best stop st c = some r ∧ r ≠ .panic ↔
      ∃ outs st' c', Attempts G H pol d o items outs st c st' c' ∧
        ((∃ v, r = .ok v st' c' ∧ ((best = some v ∧ ∀ w j, some (w, j) ∈ outs → j ≤ stop) ∨
            Wins stop outs v)) ∨
         (best = none ∧ r = .err e st' c' ∧ ∀ w j, some (w, j) ∈ outs → j ≤ stop)) := by
    intro items
    induction items with
    | nil =>
      intro best stop st c r
      constructor
      · rintro ⟨h, _⟩
        refine ⟨[], st, c, .nil _ _, ?_⟩
        cases best with
        | none => cases h; exact .inr ⟨rfl, rfl, by simp⟩
        | some v => cases h; exact .inl ⟨v, rfl, .inl ⟨rfl, by simp⟩⟩
      · rintro ⟨outs, st', c', h, h'⟩
        cases h
        rcases h' with ⟨v, rfl, ⟨rfl, _⟩ | ⟨b, a, k, h, _⟩⟩ | ⟨rfl, rfl, _⟩
        · exact ⟨rfl, by simp⟩
        · simp at h
        · exact ⟨rfl, by simp⟩
    | cons it items ih =>
      intro best stop st c r
      constructor
      · rintro ⟨h, hr⟩
        simp only [conLtm, tagged_eq, caseC_some] at h
        rcases h with ⟨_, h⟩ | ⟨v, st1, o1, h1, h⟩ | ⟨e1, st1, o1, h1, h⟩
        · exact absurd h hr
        · split at h
          · next hc =>
            obtain ⟨outs, st', c', ha, hw⟩ := (ih _ _ _ _ _).mp ⟨h, hr⟩
            refine ⟨_, st', c', .ok ((con_iff _ _ _ _).mpr h1) ha, ?_⟩
            rcases hw with ⟨v', rfl, ⟨hv, hl⟩ | ⟨b, a, k, rfl, hk, hb, ha⟩⟩ | ⟨hv, _⟩
            · cases hv
              exact .inl ⟨_, rfl, .inr ⟨[], outs, o1, rfl, hc, by simp, hl⟩⟩
            · refine .inl ⟨v', rfl, .inr ⟨_ :: b, a, k, rfl, by omega, ?_, ha⟩⟩
              intro w j hm
              rcases List.mem_cons.mp hm with h | h
              · cases h; exact hk
              · exact hb w j h
            · cases hv
          · next hc =>
            obtain ⟨outs, st', c', ha, hw⟩ := (ih _ _ _ _ _).mp ⟨h, hr⟩
            refine ⟨_, st', c', .ok ((con_iff _ _ _ _).mpr h1) ha, ?_⟩
            rcases hw with ⟨v', rfl, ⟨hv, hl⟩ | ⟨b, a, k, rfl, hk, hb, ha⟩⟩ | ⟨hv, rfl, hl⟩
            · refine .inl ⟨v', rfl, .inl ⟨hv, fun w j hm => ?_⟩⟩
              rcases List.mem_cons.mp hm with h | h
              · cases h; omega
              · exact hl w j h
            · refine .inl ⟨v', rfl, .inr ⟨_ :: b, a, k, rfl, hk, ?_, ha⟩⟩
              intro w j hm
              rcases List.mem_cons.mp hm with h | h
              · cases h; omega
              · exact hb w j h
            · refine .inr ⟨hv, rfl, fun w j hm => ?_⟩
              rcases List.mem_cons.mp hm with h | h
              · cases h; omega
              · exact hl w j h
        · obtain ⟨outs, st', c', ha, hw⟩ := (ih _ _ _ _ _).mp ⟨h, hr⟩
          refine ⟨_, st', c', .err ((con_iff _ _ _ _).mpr h1) ha, ?_⟩
          rcases hw with ⟨v', rfl, ⟨hv, hl⟩ | ⟨b, a, k, rfl, hk, hb, ha⟩⟩ | ⟨hv, rfl, hl⟩
          · exact .inl ⟨v', rfl, .inl ⟨hv, fun w j hm => hl w j (by simpa using hm)⟩⟩
          · exact .inl ⟨v', rfl, .inr ⟨_ :: b, a, k, rfl, hk, fun w j hm => hb w j (by simpa using hm), ha⟩⟩
          · exact .inr ⟨hv, rfl, fun w j hm => hl w j (by simpa using hm)⟩
      · rintro ⟨outs, st', c', h, hw⟩
        cases h with
        | @ok _ _ outs _ st1 _ v _ o1 _ h1 h2 =>
          simp only [conLtm, tagged_eq, caseC_some]
          by_cases hc : o1 > stop
          · have hn : ∀ w j, some (w, j) ∈ some (altValue it.2 v, o1) :: outs → ¬ j ≤ stop ∨ some (w, j) ∈ outs := by
              intro w j hm
              rcases List.mem_cons.mp hm with h | h
              · cases h; exact .inl (by omega)
              · exact .inr h
            have : conLtm (conL G H pol d) e o items (some (altValue it.2 v)) o1 st1 o1 = some r ∧ r ≠ .panic := by
              refine (ih _ _ _ _ _).mpr ⟨outs, st', c', h2, ?_⟩
              rcases hw with ⟨v', rfl, ⟨_, hl⟩ | ⟨b, a, k, hs, hk, hb, ha⟩⟩ | ⟨_, _, hl⟩
              · exact absurd (hl (altValue it.2 v) o1 (by simp)) (by omega)
              · refine .inl ⟨v', rfl, ?_⟩
                cases b with
                | nil =>
                  simp only [List.nil_append, List.cons.injEq, Option.some.injEq, Prod.mk.injEq] at hs
                  obtain ⟨⟨rfl, rfl⟩, rfl⟩ := hs
                  exact .inl ⟨rfl, ha⟩
                | cons y b =>
                  simp only [List.cons_append, List.cons.injEq] at hs
                  obtain ⟨rfl, rfl⟩ := hs
                  exact .inr ⟨b, a, k, rfl, hb (altValue it.2 v) o1 (by simp), fun w j h => hb w j (by simp [h]), ha⟩
              · exact absurd (hl (altValue it.2 v) o1 (by simp)) (by omega)
            exact ⟨.inr (.inl ⟨_, _, _, (con_iff _ _ _ _).mp h1, by rw [if_pos hc]; exact this.1⟩), this.2⟩
          · have : conLtm (conL G H pol d) e o items best stop st1 o1 = some r ∧ r ≠ .panic := by
              refine (ih _ _ _ _ _).mpr ⟨outs, st', c', h2, ?_⟩
              rcases hw with ⟨v', rfl, ⟨hv, hl⟩ | ⟨b, a, k, hs, hk, hb, ha⟩⟩ | ⟨hv, rfl, hl⟩
              · exact .inl ⟨v', rfl, .inl ⟨hv, fun w j h => hl w j (by simp [h])⟩⟩
              · refine .inl ⟨v', rfl, ?_⟩
                cases b with
                | nil =>
                  simp only [List.nil_append, List.cons.injEq, Option.some.injEq, Prod.mk.injEq] at hs
                  obtain ⟨⟨rfl, rfl⟩, rfl⟩ := hs
                  exact absurd hk hc
                | cons y b =>
                  simp only [List.cons_append, List.cons.injEq] at hs
                  obtain ⟨rfl, rfl⟩ := hs
                  exact .inr ⟨b, a, k, rfl, hk, fun w j h => hb w j (by simp [h]), ha⟩
              · exact .inr ⟨hv, rfl, fun w j h => hl w j (by simp [h])⟩
            exact ⟨.inr (.inl ⟨_, _, _, (con_iff _ _ _ _).mp h1, by rw [if_neg hc]; exact this.1⟩), this.2⟩
        | @err _ _ outs _ st1 _ e1 _ o1 _ h1 h2 =>
          simp only [conLtm, tagged_eq, caseC_some]
          have : conLtm (conL G H pol d) e o items best stop st1 o1 = some r ∧ r ≠ .panic := by
            refine (ih _ _ _ _ _).mpr ⟨outs, st', c', h2, ?_⟩
            rcases hw with ⟨v', rfl, ⟨hv, hl⟩ | ⟨b, a, k, hs, hk, hb, ha⟩⟩ | ⟨hv, rfl, hl⟩
            · exact .inl ⟨v', rfl, .inl ⟨hv, fun w j h => hl w j (by simp [h])⟩⟩
            · refine .inl ⟨v', rfl, ?_⟩
              cases b with
              | nil => simp at hs
              | cons y b =>
                simp only [List.cons_append, List.cons.injEq] at hs
                obtain ⟨rfl, rfl⟩ := hs
                exact .inr ⟨b, a, k, rfl, hk, fun w j h => hb w j (by simp [h]), ha⟩
            · exact .inr ⟨hv, rfl, fun w j h => hl w j (by simp [h])⟩
          exact ⟨.inr (.inr ⟨_, _, _, (con_iff _ _ _ _).mp h1, this.1⟩), this.2⟩
  refine ⟨fun v st' o' => ?_, fun e' st' o' => ?_⟩
  · rw [con_iff, conL_ltm]
    have := key items none o st o (.ok v st' o')
    simp only [ne_eq, reduceCtorEq, not_false_eq_true, and_true, CRes.ok.injEq, false_and, or_false,
      false_or, and_false] at this
    rw [this]
    constructor
    · rintro ⟨outs, st1, c1, h, v', ⟨rfl, rfl, rfl⟩, hw⟩; exact ⟨outs, h, hw⟩
    · rintro ⟨outs, h, hw⟩; exact ⟨outs, _, _, h, v, ⟨rfl, rfl, rfl⟩, hw⟩
  · rw [con_iff, conL_ltm]
    have := key items none o st o (.err e' st' o')
    simp only [ne_eq, reduceCtorEq, not_false_eq_true, and_true, CRes.err.injEq, false_and, or_false,
      false_or, and_false, exists_false, true_and] at this
    rw [this]
    constructor
    · rintro ⟨outs, st1, c1, h, ⟨rfl, rfl, rfl⟩, hw⟩; exact ⟨rfl, outs, h, hw⟩
    · rintro ⟨rfl, outs, h, hw⟩; exact ⟨outs, _, _, h, ⟨rfl, rfl, rfl⟩, hw⟩

/-- The winner is right, the position is not: `abc` wins, the offset is 1. -/
theorem C07_ltm_construct_counterexample :
    Constructs (σ := Nat) G0 lenH none ['a', 'b', 'c']
      (.ltm .array [(.lit ['a', 'b', 'c'], none), (.lit ['a'], none)]) 0 0 (.ok (.base 3) 2 1) :=
  ⟨5, by decide⟩

/-- An empty match wins when matching but is rejected when constructing
(`src/ctor.rs:958` compares with `>` against the start). -/
theorem C07_ltm_empty_counterexample :
    Parses (β := Nat) G0 none ['b'] (.ltm .array [(.optU (.item 'a') .empty, none)]) 0 (.ok ⟨0, 0⟩ 0) ∧
    Constructs (σ := Nat) G0 lenH none ['b'] (.ltm .array [(.optU (.item 'a') .empty, none)]) 0 0
      (.err .array 1 0) := ⟨⟨5, by decide⟩, 5, by decide⟩

/-! ## C19: matching and constructing agree -/

theorem same_iff {p : Pat ι β} {st : σ} {o : Nat}
    (h : ∀ n, Same (con G H n none d p st o) (parse G n none d p o)) :
    (∀ o', (∃ v st', Constructs G H none d p st o (.ok v st' o')) ↔
      ∃ s, Runs G none d p o (.ok s o')) ∧
    (∀ e o', (∃ st', Constructs G H none d p st o (.err e st' o')) ↔
      Runs G none d p o (.err e o')) ∧
    ¬ Constructs G H none d p st o .panic ∧ ¬ Runs G none d p o .panic := by
  refine ⟨fun o' => ⟨?_, ?_⟩, fun e o' => ⟨?_, ?_⟩, ?_, ?_⟩
  · rintro ⟨v, st', n, hn⟩
    have := h n
    rw [hn] at this
    rcases hm : parse G n none d p o with _ | ⟨s, o1⟩ | ⟨e, o1⟩ | _ <;> rw [hm] at this <;>
      simp only [Same] at this
    subst this
    exact ⟨s, n, hm⟩
  · rintro ⟨s, n, hn⟩
    have hn : parse G n none d p o = some (.ok s o') := hn
    have := h n
    rw [hn] at this
    rcases hm : con G H n none d p st o with _ | ⟨s, st1, o1⟩ | ⟨e, st1, o1⟩ | _ <;> rw [hm] at this <;>
      simp only [Same] at this
    subst this
    exact ⟨s, st1, n, hm⟩
  · rintro ⟨st', n, hn⟩
    have := h n
    rw [hn] at this
    rcases hm : parse G n none d p o with _ | ⟨s, o1⟩ | ⟨e, o1⟩ | _ <;> rw [hm] at this <;>
      simp only [Same] at this
    obtain ⟨rfl, rfl⟩ := this
    exact ⟨n, hm⟩
  · rintro ⟨n, hn⟩
    have hn : parse G n none d p o = some (.err e o') := hn
    have := h n
    rw [hn] at this
    rcases hm : con G H n none d p st o with _ | ⟨s, st1, o1⟩ | ⟨e, st1, o1⟩ | _ <;> rw [hm] at this <;>
      simp only [Same] at this
    obtain ⟨rfl, rfl⟩ := this
    exact ⟨st1, n, hm⟩
  · rintro ⟨n, hn⟩
    have := h n
    rw [hn] at this
    rcases hm : parse G n none d p o with _ | ⟨s, o1⟩ | ⟨e, o1⟩ | _ <;> rw [hm] at this <;>
      simp only [Same] at this
  · rintro ⟨n, hn⟩
    have hn : parse G n none d p o = some .panic := hn
    have := h n
    rw [hn] at this
    rcases hm : con G H n none d p st o with _ | ⟨s, st1, o1⟩ | ⟨e, st1, o1⟩ | _ <;> rw [hm] at this <;>
      simp only [Same] at this

/-- **C19.** On a plain context, with a handler that does not fail: constructing
`p` succeeds iff matching it does, and they reach the same offset; they fail
with the same error and offset; neither panics; hence one diverges iff the other
does. -/
theorem C19_construct_agrees_with_match (hH : H.Total) (p : Pat ι β) (hp : CAll G (Agree G False) p)
    (hs : All G (Safe G none) p) (st : σ) (o : Nat) (ho : o ≤ blen d) :
    (∀ o', (∃ v st', Constructs G H none d p st o (.ok v st' o')) ↔
      ∃ s, Runs G none d p o (.ok s o')) ∧
    (∀ e o', (∃ st', Constructs G H none d p st o (.err e st' o')) ↔
      Runs G none d p o (.err e o')) ∧
    ¬ Constructs G H none d p st o .panic ∧ ¬ Runs G none d p o .panic := by
  refine same_iff fun n => ?_
  rcases sim_con (x := False) (d := d) hH n p hp st o with ⟨hf, _⟩ | hm | h
  · exact hf.elim
  · exact (safe_inv G n none (fun _ h => by cases h) d p o ho hs _ hm).elim
  · exact h

/-- Met by the recursive grammar of nested parentheses, on an input it matches. -/
example : CAll GP (Agree GP False) parens ∧ All GP (Safe GP none) parens ∧
    (lenH (ι := Char)).Total ∧
    Runs GP none ['(', '(', ')', '(', ')', ')', 'x'] parens 0 (.ok ⟨0, 6⟩ 6) ∧
    Constructs GP lenH none ['(', '(', ')', '(', ')', ')', 'x'] parens 0 0
      (.ok (.cons .nil (.cons .nil .nil)) 0 6) :=
  ⟨All.call (all_parens trivial trivial trivial trivial trivial),
   all_parens trivial trivial trivial trivial trivial, fun _ _ s st => ⟨s.len, st + 1, rfl⟩,
   ⟨20, by decide⟩, ⟨20, by decide⟩⟩

/-- **C19 (default handlers).** The same for `ctx.ctor` with the extract handler:
it may fail in general, but not from a character boundary. -/
theorem C19_extract_agrees_with_match {G : Rules ι (List ι)} (p : Pat ι (List ι))
    (hp : CAll G (Agree G False) p) (hs : All G (Safe G none) p) (hb : All G (Bounded G none) p)
    (st : σ) (o : Nat) (ho : Valid d o) :
    (∀ o', (∃ v st', Constructs G extractH none d p st o (.ok v st' o')) ↔
      ∃ s, Runs G none d p o (.ok s o')) ∧
    (∀ e o', (∃ st', Constructs G extractH none d p st o (.err e st' o')) ↔
      Runs G none d p o (.err e o')) ∧
    ¬ Constructs G extractH none d p st o .panic ∧ ¬ Runs G none d p o .panic := by
  refine same_iff fun n => ?_
  have hle : o ≤ blen d := by obtain ⟨pre, post, rfl, rfl⟩ := ho; simp
  rcases sim_con_gen (x := False) (H := extractH (σ := σ)) Keeps.valid (fun o s st hv => by
      obtain ⟨l, h, _⟩ := origSub_of_valid hv.1 hv.2
      exact ⟨l, st, by simp only [extractH, h]⟩) n p hp hb st o ho with ⟨hf, _⟩ | hm | h
  · exact hf.elim
  · exact (safe_inv G n none (fun _ h => by cases h) d p o hle hs _ hm).elim
  · exact h

/-- **C19 (arrays).** With `repeat2`/`sep2` anywhere in the pattern: whatever the
construction returns without panicking is what matching does. -/
theorem C19_arrays_agree_unless_panic (hH : H.Total) (p : Pat ι β) (hp : CAll G (Agree G True) p)
    (hs : All G (Safe G none) p) (st : σ) (o : Nat) (ho : o ≤ blen d) :
    (∀ v st' o', Constructs G H none d p st o (.ok v st' o') → ∃ s, Runs G none d p o (.ok s o')) ∧
    (∀ e st' o', Constructs G H none d p st o (.err e st' o') → Runs G none d p o (.err e o')) := by
  have key : ∀ n, con G H n none d p st o = some .panic ∨
      Same (con G H n none d p st o) (parse G n none d p o) := by
    intro n
    rcases sim_con (x := True) (d := d) hH n p hp st o with ⟨_, h⟩ | hm | h
    · exact .inl h
    · exact (safe_inv G n none (fun _ h => by cases h) d p o ho hs _ hm).elim
    · exact .inr h
  constructor
  · rintro v st' o' ⟨n, hn⟩
    have := key n
    rw [hn] at this
    rcases hm : parse G n none d p o with _ | ⟨s, o1⟩ | ⟨e, o1⟩ | _ <;> rw [hm] at this <;>
      simp [Same] at this
    subst this
    exact ⟨s, n, hm⟩
  · rintro e st' o' ⟨n, hn⟩
    have := key n
    rw [hn] at this
    rcases hm : parse G n none d p o with _ | ⟨s, o1⟩ | ⟨e, o1⟩ | _ <;> rw [hm] at this <;>
      simp [Same] at this
    obtain ⟨rfl, rfl⟩ := this
    exact ⟨n, hm⟩

/-- Met by a `repeat2` that succeeds. -/
example : CAll G0 (Agree G0 True) (.rep2 (.lit ['a']) 1 2 : Pat Char Nat) ∧
    Constructs (σ := Nat) G0 lenH none ['a', 'b'] (.rep2 (.lit ['a']) 1 2) 0 0
      (.ok (.cons (.some (.base 1)) (.cons .none .nil)) 1 1) :=
  ⟨CAll.intro trivial fun q hq => by cases hq; exact CAll.intro trivial fun _ h => h.elim, 5, by decide⟩

/-- `repeat2` and `sep2` on one element too many: matching fails and succeeds,
respectively, constructing panics in both cases. -/
theorem C19_arrays_counterexample :
    (Runs (β := Nat) G0 none ['a', 'a'] (.rep2 (.lit ['a']) 1 1) 0 (.err .repeat2 0) ∧
      Constructs (σ := Nat) G0 lenH none ['a', 'a'] (.rep2 (.lit ['a']) 1 1) 0 0 .panic) ∧
    (Runs (β := Nat) G0 none ['a', ',', 'a'] (.sep2 (.lit ['a']) (.lit [',']) true 1 1) 0 (.ok ⟨0, 3⟩ 3) ∧
      Constructs (σ := Nat) G0 lenH none ['a', ',', 'a'] (.sep2 (.lit ['a']) (.lit [',']) true 1 1) 0 0 .panic) :=
  ⟨⟨⟨6, by decide⟩, ⟨6, by decide⟩⟩, ⟨6, by decide⟩, ⟨6, by decide⟩⟩

/-- `*_ltm`: matching accepts an empty match, constructing does not. -/
theorem C19_ltm_counterexample :
    Runs (β := Nat) G0 none ['b'] (.ltm .array [(.optU (.item 'a') .empty, none)]) 0 (.ok ⟨0, 0⟩ 0) ∧
    Constructs (σ := Nat) G0 lenH none ['b'] (.ltm .array [(.optU (.item 'a') .empty, none)]) 0 0
      (.err .array 1 0) := ⟨⟨5, by decide⟩, 5, by decide⟩

/-- Under a skip policy the two modes leave different positions: a failing
optional keeps the skipped blanks when matching and returns them when
constructing. -/
theorem C19_policy_counterexample :
    Runs G0 (some spaces) [' ', 'b'] (.opt (.lit ['a'])) 0 (.ok ⟨1, 0⟩ 1) ∧
    Constructs (σ := Nat) G0 lenH (some spaces) [' ', 'b'] (.opt (.lit ['a'])) 0 0 (.ok .none 0 0) :=
  ⟨⟨6, by decide⟩, 6, by decide⟩

/-- A handler that fails makes the construction fail. -/
theorem C19_handler_counterexample :
    Runs (β := Nat) G0 none ['a', 'a'] (.lit ['a', 'a']) 0 (.ok ⟨0, 2⟩ 2) ∧
    Constructs G0 pickyH none ['a', 'a'] (.lit ['a', 'a']) 0 0 (.err (.uid 7) 1 2) :=
  ⟨⟨5, by decide⟩, 5, by decide⟩

/-! ## C20: failed construction and position -/

/-- **C20.** Every combinator that groups, chooses or repeats restores the
position when its construction fails: whatever its sub-patterns, the handler, the
mappers and the policy do. -/
theorem C20_guarded_restores (p : Pat ι β) (hp : Guarded p) (st : σ) (o : Nat) (e : Error) (st' : σ)
    (o' : Nat) (h : Constructs G H pol d p st o (.err e st' o')) : o' = o := by
  obtain ⟨n, hn⟩ := h
  exact guarded_at n p hp st o _ hn

/-- Met with a failing mapper inside a sequence. -/
example : Guarded (.thn (.lit ['a']) (.map (.lit ['b']) fun _ => .err .fail) : Pat Char Nat) ∧
    Constructs (σ := Nat) G0 lenH none ['a', 'b'] (.thn (.lit ['a']) (.map (.lit ['b']) fun _ => .err .fail)) 0 0
      (.err .fail 2 0) := ⟨trivial, 5, by decide⟩

/-- **C20.** An optional never fails; it yields `none` at the old position instead. -/
theorem C20_opt_never_fails (q : Pat ι β) (st : σ) (o : Nat) (e : Error) (st' : σ) (o' : Nat) :
    ¬ Constructs G H pol d (.opt q) st o (.err e st' o') ∧
    (∀ st' o', Constructs G H pol d (.opt q) st o (.ok .none st' o') → o' = o) := by
  constructor
  · rw [con_iff, conL_opt, caseC_some]
    rintro (⟨_, h⟩ | ⟨_, _, _, _, h⟩ | ⟨_, _, _, _, h⟩) <;> cases h
  · intro st' o'
    rw [con_iff, conL_opt, caseC_some]
    rintro (⟨_, h⟩ | ⟨_, _, _, _, h⟩ | ⟨_, _, _, _, h⟩) <;> cases h
    rfl

example : Constructs (σ := Nat) G0 lenH none ['b'] (.opt (.lit ['a'])) 0 0 (.ok .none 0 0) :=
  ⟨5, by decide⟩

/-- **C20.** On a plain context with a handler, mappers and builder closures that
do not fail, every failing construction restores the position. -/
theorem C20_failed_construct_restores (hH : H.Total) (p : Pat ι β) (hp : CAll G (CRestores G) p)
    (st : σ) (o : Nat) (e : Error) (st' : σ) (o' : Nat)
    (h : Constructs G H none d p st o (.err e st' o')) : o' = o := by
  obtain ⟨n, hn⟩ := h
  exact restores_at hH n p hp st o _ hn

/-- Met by a mapped leaf; the failure is real. -/
example : CAll G0 (CRestores G0) (.map (.lit ['a', 'b']) (fun v => .ok v) : Pat Char Nat) ∧
    Constructs (σ := Nat) G0 lenH none ['a', 'c'] (.map (.lit ['a', 'b']) (fun v => .ok v)) 0 0
      (.err .literal 0 0) := by
  refine ⟨CAll.intro (fun v e h => by cases h) fun q hq => ?_, 5, by decide⟩
  cases hq
  exact CAll.intro (fun _ => all_lit trivial) fun _ h => h.elim

/-- A failing mapper leaves the offset after the match (`src/ctor/map.rs:230-232`). -/
theorem C20_map_counterexample :
    Constructs (σ := Nat) G0 lenH none ['a', 'b'] (.map (.lit ['a']) fun _ => .err (.uid 1)) 0 0
      (.err (.uid 1) 1 1) := ⟨5, by decide⟩

/-- So does a failing handler. -/
theorem C20_handler_counterexample :
    Constructs G0 pickyH none ['a', 'a'] (.lit ['a', 'a']) 0 0 (.err (.uid 7) 1 2) := ⟨5, by decide⟩

/-- And a failing closure of `dyn_then_ctor` (`src/ctor/dthen.rs:228`). -/
theorem C20_dthen_counterexample :
    Constructs (σ := Nat) G0 lenH none ['a', 'b'] (.dthen (.lit ['a']) fun _ o _ => .err .fail o) 0 0
      (.err .fail 1 1) := ⟨5, by decide⟩

/-- A loop ended by a failing mapper *succeeds* but has swallowed the text of the
element it rejected: `collect` of mapped `a`s, where the mapper rejects, returns
no elements at offset 1 (`src/ctor/collect.rs:172-176`). -/
theorem C20_collect_partial_consumption_counterexample :
    Constructs (σ := Nat) G0 lenH none ['a', 'b'] (.collect (.map (.lit ['a']) fun _ => .err .fail) 0) 0 0
      (.ok .nil 1 1) := ⟨5, by decide⟩

/-! ## C46: constructed slices reproduce the input -/

/-- **C46 (leaves).** With the extract handler a leaf's value is exactly the text
between the old and the new position. -/
theorem C46_leaf_is_matched_text {G : Rules ι (List ι)} (p : Pat ι (List ι)) (hp : IsLeaf p)
    (ht : All G Tidy p) (hb : All G (Bounded G none) p) (st : σ) (o : Nat) (ho : Valid d o)
    (v : Val (List ι)) (st' : σ) (o' : Nat)
    (h : Constructs G extractH none d p st o (.ok v st' o')) :
    ∃ l, v = .base l ∧ TextBetween d o l o' := by
  have hc : CAll G TextKept p := by
    refine CAll.intro ?_ fun q hq => ?_
    · cases p <;> first | exact hp | exact hp.elim
    · cases p <;> first | exact hp.elim | exact hq.elim
  obtain ⟨n, hn⟩ := h
  have ht := text_inv n p hc ht hb st o ho _ hn
  cases n with
  | zero => cases hn
  | succ n =>
    have : ∃ m, invokeK extractH d st m = some (.ok v st' o') := by
      cases p <;> first | exact hp.elim | (simp only [con, conStep] at hn; exact ⟨_, hn⟩)
    obtain ⟨m, hm⟩ := this
    unfold invokeK at hm
    rw [caseM_some] at hm
    rcases hm with ⟨_, h⟩ | ⟨s, o1, _, h⟩ | ⟨_, _, _, h⟩
    · cases h
    · simp only [extractH] at h
      cases hs : origSub d s.beg s.len <;> rw [hs] at h <;> simp at h
      obtain ⟨rfl, rfl, rfl⟩ := h
      refine ⟨_, rfl, ?_⟩
      simpa [TextPost, Val.leaves] using ht
    · cases h

example : IsLeaf (.many1 (.item 'é') .empty : Pat Char (List Char)) ∧
    Constructs (σ := Unit) G0 extractH none ['é', 'é', 'b'] (.many1 (.item 'é') .empty) () 0
      (.ok (.base ['é', 'é']) () 4) := ⟨trivial, 6, by decide⟩

/-- **C46 (sequences).** For leaves combined by `then`, `or`, `longest`, `opt`,
lists, `repeat`, `repeat2`, `collect`, `branch` and recursion, the extracted
slices, in the order in which they appear in the value, concatenate to the text
between the start and the end position. -/
theorem C46_slices_concatenate {G : Rules ι (List ι)} (p : Pat ι (List ι)) (hp : CAll G TextKept p)
    (ht : All G Tidy p) (hb : All G (Bounded G none) p) (st : σ) (o : Nat) (ho : Valid d o)
    (v : Val (List ι)) (st' : σ) (o' : Nat)
    (h : Constructs G extractH none d p st o (.ok v st' o')) :
    TextBetween d o v.leaves.flatten o' := by
  obtain ⟨n, hn⟩ := h
  exact text_inv n p hp ht hb st o ho _ hn

/-- Met by `collect` over "`a` or `b`, then an optional `c`". -/
example : let p : Pat Char (List Char) :=
      .collect (.thn (.or (.lit ['a']) (.lit ['b'])) (.opt (.lit ['c']))) 1
    CAll G0 TextKept p ∧
    Constructs (σ := Unit) G0 extractH none ['a', 'c', 'b', 'x'] p () 0
      (.ok (.cons (.pair (.base ['a']) (.some (.base ['c']))) (.cons (.pair (.base ['b']) .none) .nil)) () 3) := by
  refine ⟨CAll.intro trivial fun q hq => ?_, 12, by decide⟩
  cases hq
  refine CAll.intro trivial fun q hq => ?_
  rcases hq with rfl | rfl
  · refine CAll.intro trivial fun q hq => ?_
    rcases hq with rfl | rfl <;> exact CAll.intro trivial fun _ h => h.elim
  · refine CAll.intro trivial fun q hq => ?_
    cases hq; exact CAll.intro trivial fun _ h => h.elim

/-- **C46 (handler calls).** For patterns in which whatever is tried and given up
again fails before it reaches the handler, the handler's calls are exactly the
leaves of the value: once each, in the order of the value. -/
theorem C46_handler_calls_are_leaves {G : Rules ι (List ι)} {pol : Option (Pat ι (List ι))}
    (p : Pat ι (List ι)) (hp : CAll G (Direct G) p) (log : List (List ι)) (o : Nat)
    (v : Val (List ι)) (log' : List (List ι)) (o' : Nat)
    (h : Constructs G logH pol d p log o (.ok v log' o')) : log' = log ++ v.leaves := by
  obtain ⟨n, hn⟩ := h
  exact log_inv n p hp log o _ hn

example : Constructs G0 logH none ['a', 'c', 'b', 'x']
    (.thn (.collect (.or (.lit ['a']) (.lit ['c'])) 1) (.lit ['b'])) [['z']] 0
      (.ok (.pair (.cons (.base ['a']) (.cons (.base ['c']) .nil)) (.base ['b']))
        [['z'], ['a'], ['c'], ['b']] 3) ∧
    CAll G0 (Direct G0) (.thn (.collect (.or (.lit ['a']) (.lit ['c'])) 1) (.lit ['b']) : Pat Char (List Char)) := by
  have hlit : ∀ {P : Pat Char (List Char) → Prop} {l : List Char}, P (.lit l) → CAll G0 P (.lit l) :=
    fun h => CAll.intro h fun _ h => h.elim
  have hor : ∀ {P : Pat Char (List Char) → Prop}, P (.or (.lit ['a']) (.lit ['c'])) → P (.lit ['a']) →
      P (.lit ['c']) → CAll G0 P (.or (.lit ['a']) (.lit ['c'])) := fun h1 h2 h3 =>
    CAll.intro h1 fun q hq => by rcases hq with rfl | rfl <;> exact hlit ‹_›
  refine ⟨⟨12, by decide⟩, CAll.intro trivial fun q hq => ?_⟩
  rcases hq with rfl | rfl
  · refine CAll.intro (hor trivial trivial trivial) fun q hq => ?_
    cases hq
    exact hor (hlit trivial) trivial trivial
  · exact hlit trivial

/-- An alternative given up after its first leaf has already called the handler. -/
theorem C46_backtracking_calls_counterexample :
    Constructs G0 logH none ['a', 'c']
      (.or (.thn (.lit ['a']) (.lit ['b'])) (.thn (.lit ['a']) (.lit ['c']))) [] 0
      (.ok (.pair (.base ['a']) (.base ['c'])) [['a'], ['a'], ['c']] 2) := ⟨6, by decide⟩

end Neure
