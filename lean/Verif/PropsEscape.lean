import Verif.Escape
/-!
# C48: `escape_strval!` recognises string bodies
-/

namespace Neure

set_option linter.unusedSectionVars false
set_option linter.unusedSimpArgs false

open Demo

variable {ι β : Type} [Item ι] {G : Rules ι β} {quote pfx : ι} {esc : Neu ι}

theorem fair_item (a : ι) : (Neu.item a).Fair := by
  intro x hx
  simp only [Neu.isMatch, decide_eq_true_eq] at hx
  simp [Neu.minLength, hx]

theorem pair_ok (he : esc.Fair) (pre rest : List ι) (s : Span) (o' : Nat) :
    Runs (β := β) G none (pre ++ rest) (escapePair pfx esc) (blen pre) (.ok s o') ↔
      ∃ y t, rest = pfx :: y :: t ∧ esc.isMatch y = true ∧
        s = ⟨blen pre, blen [pfx, y]⟩ ∧ o' = blen pre + blen [pfx, y] := by
  rw [runs_plain]
  unfold escapePair
  rw [C25_unit_then _ _ (fair_item pfx) he .empty pre rest rfl s o']
  simp only [itemGives_empty]
  constructor
  · rintro ⟨x, y, t, rfl, h1, h2, h3, h4⟩
    have : pfx = x := by simpa [Neu.isMatch] using h1
    subst this
    exact ⟨y, t, rfl, h2, by simpa using h3, by simpa using h4⟩
  · rintro ⟨y, t, rfl, h2, h3, h4⟩
    exact ⟨pfx, y, t, rfl, by simp [Neu.isMatch], h2, by simpa using h3, by simpa using h4⟩

theorem pair_terminates : Terminates (β := β) G none (escapePair pfx esc) :=
  All.intro ⟨trivial, trivial, ⟨_, fun _ h => absurd h id⟩⟩ fun _ hc => absurd hc id

theorem pair_fails (he : esc.Fair) (pre rest : List ι) :
    Fails (β := β) G none (pre ++ rest) (escapePair pfx esc) (blen pre) ↔
      ¬ StartsPair pfx esc.isMatch rest := by
  constructor
  · rintro ⟨e, o', h⟩ ⟨y, t, h1, h2⟩
    cases h.unique ((pair_ok he pre rest _ _).mpr ⟨y, t, h1, h2, rfl, rfl⟩)
  · intro hn
    rcases C35_terminates (fun _ h => by cases h) _ (pair_terminates (G := G) (β := β)) (pre ++ rest) (blen pre)
      (by simp) with ⟨s, o', h⟩ | ⟨e, o', h⟩
    · obtain ⟨y, t, h1, h2, _⟩ := (pair_ok he pre rest s o').mp h
      exact absurd ⟨y, t, h1, h2⟩ hn
    · exact ⟨e, o', h⟩

/-- The condition of the run: no escape pair starts here. -/
theorem noPair_iff (he : esc.Fair) (rest : List ι) :
    (Matches (β := β) G none rest (.assert (escapePair pfx esc) false) 0 ↔
      ¬ StartsPair pfx esc.isMatch rest) ∧
    (Fails (β := β) G none rest (.assert (escapePair pfx esc) false) 0 ↔
      StartsPair pfx esc.isMatch rest) := by
  have h := pair_fails (β := β) (G := G) (pfx := pfx) he [] rest
  have h' := fun s o' => pair_ok (β := β) (G := G) (pfx := pfx) he [] rest s o'
  simp only [List.nil_append, blen_nil] at h h'
  constructor
  · unfold Matches
    simp only [runs_plain, (C11_assert _ false 0).1]
    constructor
    · rintro ⟨s, o', _, _, hf⟩
      exact h.mp hf
    · intro hn
      exact ⟨_, _, rfl, rfl, h.mpr hn⟩
  · unfold Fails
    simp only [runs_plain, (C11_assert _ false 0).2.1]
    constructor
    · rintro ⟨e, o', _, _, s, o2, hm⟩
      obtain ⟨y, t, h1, h2, _⟩ := (h' s o2).mp hm
      exact ⟨y, t, h1, h2⟩
    · rintro ⟨y, t, h1, h2⟩
      exact ⟨_, _, rfl, rfl, _, _, (h' _ _).mpr ⟨y, t, h1, h2, rfl, rfl⟩⟩

/-- The run is the longest stretch of characters taken one by one. -/
theorem run_greedy (he : esc.Fair) (pre post : List ι) :
    GreedyRun (β := β) G none (pre ++ post) (blen pre) (.not (.item quote))
      (.regex (.assert (escapePair pfx esc) false)) anyCount
      (plainRun quote pfx esc.isMatch post).1 (plainRun quote pfx esc.isMatch post).2 := by
  have hsplit := plainRun_append (quote := quote) (pfx := pfx) (esc := esc.isMatch) post
  have notq : ∀ x, (Neu.not (.item quote)).isMatch x = true ↔ x ≠ quote := by
    intro x
    simp only [Neu.isMatch, Bool.not_eq_true', decide_eq_false_iff_not, ne_eq]
    exact ⟨fun h h' => h h'.symm, fun h h' => h h'.symm⟩
  refine ⟨⟨pre, by rw [List.append_assoc, hsplit], rfl⟩, ?_, ?_⟩
  · intro a x b hab
    obtain ⟨h1, h2⟩ := plainRun_plain post a x b hab
    refine ⟨trivial, .inl ⟨(notq x).mpr h1, pre ++ a, x :: (b ++ (plainRun quote pfx esc.isMatch post).2), ?_, by simp,
      .inl ⟨rfl, (noPair_iff he _).1.mpr h2⟩⟩⟩
    have := congrArg (pre ++ ·) hsplit
    rw [hab] at this
    rw [← this]; simp
  · intro x t hx _
    by_cases hq : x = quote
    · exact .inr ⟨by subst hq; simp [Neu.isMatch], rfl⟩
    · have := (plainRun_stop post x t hx).resolve_left hq
      refine .inl ⟨(notq x).mpr hq, pre ++ (plainRun quote pfx esc.isMatch post).1, x :: t, ?_, by simp,
        .inr (.inl ⟨rfl, (noPair_iff he _).2.mpr this⟩)⟩
      rw [← hx, List.append_assoc, hsplit]

/-- One round takes the run if it is non-empty. -/
theorem round_run (he : esc.Fair) (pre post : List ι)
    (hne : (plainRun quote pfx esc.isMatch post).1 ≠ []) :
    Runs (β := β) G none (pre ++ post) (escapeRound quote pfx esc) (blen pre)
      (.ok ⟨blen pre, blen (plainRun quote pfx esc.isMatch post).1⟩
        (blen pre + blen (plainRun quote pfx esc.isMatch post).1)) := by
  rw [runs_plain]
  unfold escapeRound
  rw [(C06_or _ _ _).1]
  left
  rw [runs_plain, (C23_many1 _ _ _ ⟨pre, post, rfl, rfl⟩).1]
  exact ⟨_, _, run_greedy he pre post, hne, rfl, rfl⟩

theorem run_fails (he : esc.Fair) (pre post : List ι)
    (hne : (plainRun quote pfx esc.isMatch post).1 = []) :
    Fails (β := β) G none (pre ++ post) (.many1 (.not (.item quote))
        (.regex (.assert (escapePair pfx esc) false))) (blen pre) := by
  refine ⟨.many1, blen pre, ?_⟩
  rw [runs_plain, (C23_many1 _ _ _ ⟨pre, post, rfl, rfl⟩).2]
  exact ⟨rfl, .inr ⟨rfl, _, hne ▸ run_greedy he pre post⟩⟩

/-- Otherwise it takes an escape pair, if there is one. -/
theorem round_pair (he : esc.Fair) (pre : List ι) (y : ι) (t : List ι) (hy : esc.isMatch y = true)
    (hne : (plainRun quote pfx esc.isMatch (pfx :: y :: t)).1 = []) :
    Runs (β := β) G none (pre ++ pfx :: y :: t) (escapeRound quote pfx esc) (blen pre)
      (.ok ⟨blen pre, blen [pfx, y]⟩ (blen pre + blen [pfx, y])) := by
  rw [runs_plain]
  unfold escapeRound
  rw [(C06_or _ _ _).1]
  exact .inr ⟨run_fails he pre _ hne, (pair_ok he pre _ _ _).mpr ⟨y, t, rfl, hy, rfl, rfl⟩⟩

/-- Otherwise it fails and leaves the offset. -/
theorem round_stop (he : esc.Fair) (pre post : List ι)
    (hne : (plainRun quote pfx esc.isMatch post).1 = []) (hn : ¬ StartsPair pfx esc.isMatch post) :
    ∃ e, Runs (β := β) G none (pre ++ post) (escapeRound quote pfx esc) (blen pre) (.err e (blen pre)) := by
  obtain ⟨e, o', hr⟩ := (pair_fails (β := β) (G := G) he pre post).mpr hn
  refine ⟨e, ?_⟩
  rw [runs_plain]
  unfold escapeRound
  rw [(C06_or _ _ _).2.1]
  exact ⟨rfl, run_fails he pre post hne, o', hr⟩

theorem strBody_nil_of (post : List ι) (h : (plainRun quote pfx esc.isMatch post).1 = [])
    (hn : ¬ StartsPair pfx esc.isMatch post) : strBody quote pfx esc.isMatch post = [] := by
  cases post with
  | nil => rfl
  | cons x l =>
    have h2 : (plainRun quote pfx esc.isMatch (x :: l)).2 = x :: l := by
      have := plainRun_append (quote := quote) (pfx := pfx) (esc := esc.isMatch) (x :: l)
      rw [h] at this; simpa using this
    have := (plainRun_stop _ x l h2).resolve_right hn
    subst this
    exact strBody_stop l hn

/-- The loop applies the round until the body is used up, and then the round
fails. -/
theorem loop_applied (he : esc.Fair) (pre post : List ι) (tb tl : Nat)
    (ht' : tb + tl = blen pre) :
    ∃ k, Applied (β := β) G none (pre ++ post) (escapeRound quote pfx esc) k ⟨tb, tl⟩ (blen pre)
        ⟨tb, tl + blen (strBody quote pfx esc.isMatch post)⟩
        (blen pre + blen (strBody quote pfx esc.isMatch post)) ∧
      ∃ e, Runs (β := β) G none (pre ++ post) (escapeRound quote pfx esc)
        (blen pre + blen (strBody quote pfx esc.isMatch post))
        (.err e (blen pre + blen (strBody quote pfx esc.isMatch post))) := by
  generalize hn : post.length = n
  induction n using Nat.strongRecOn generalizing pre post tl with
  | _ n ih =>
    by_cases hne : (plainRun quote pfx esc.isMatch post).1 = []
    · by_cases hp : StartsPair pfx esc.isMatch post
      · obtain ⟨y, l, rfl, hy⟩ := hp
        have hr := round_pair (β := β) (G := G) he pre y l hy hne
        have heq : (pre ++ [pfx, y]) ++ l = pre ++ pfx :: y :: l := by simp
        obtain ⟨k, hk, e, hE⟩ := ih l.length (by simp at hn; omega) (pre ++ [pfx, y]) l
          (tl + blen [pfx, y]) (by simp only [blen_append]; omega) rfl
        have hb : blen (strBody quote pfx esc.isMatch (pfx :: y :: l)) =
            blen [pfx, y] + blen (strBody quote pfx esc.isMatch l) := by
          rw [strBody_pair y l hy, ← blen_append]; rfl
        rw [hb]
        rw [heq, blen_append] at hk hE
        simp only [Nat.add_assoc] at hk hE ⊢
        exact ⟨k + 1, .succ (t1 := ⟨tb, tl + blen [pfx, y]⟩) hr ⟨by dsimp only; omega, by dsimp only; omega, rfl, by dsimp only; omega⟩ hk, e, hE⟩
      · rw [strBody_nil_of post hne hp]
        exact ⟨0, .zero _ _, round_stop he pre post hne hp⟩
    · have hr := round_run (β := β) (G := G) he pre post hne
      have hsplit := plainRun_append (quote := quote) (pfx := pfx) (esc := esc.isMatch) post
      rw [strBody_run post]
      generalize hru : (plainRun quote pfx esc.isMatch post).1 = run at *
      generalize hre : (plainRun quote pfx esc.isMatch post).2 = rest at *
      have hlen : rest.length < n := by
        rw [← hn, ← hsplit, List.length_append]
        have : 0 < run.length := List.length_pos_iff.mpr hne
        omega
      obtain ⟨k, hk, e, hE⟩ := ih rest.length hlen (pre ++ run) rest
        (tl + blen run) (by simp only [blen_append]; omega) rfl
      rw [List.append_assoc, hsplit, blen_append] at hk hE
      rw [blen_append]
      simp only [Nat.add_assoc] at hk hE ⊢
      exact ⟨k + 1, .succ (t1 := ⟨tb, tl + blen run⟩) hr ⟨by dsimp only; omega, by dsimp only; omega, rfl, by dsimp only; omega⟩ hk, e, hE⟩

/-- **C48.** On every input, `escape_strval!(quote, prefix, escape)` succeeds and
consumes exactly the string body: the longest prefix in which, reading from the
left, every quote is the second half of an escape pair. -/
theorem C48_escape_strval (he : esc.Fair) (pre post : List ι) (r : Res Span) :
    Runs (β := β) G none (pre ++ post) (escapeStrval quote pfx esc) (blen pre) r ↔
      r = .ok ⟨blen pre, blen (strBody quote pfx esc.isMatch post)⟩
        (blen pre + blen (strBody quote pfx esc.isMatch post)) := by
  have key : Runs (β := β) G none (pre ++ post) (escapeStrval quote pfx esc) (blen pre)
      (.ok ⟨blen pre, blen (strBody quote pfx esc.isMatch post)⟩
        (blen pre + blen (strBody quote pfx esc.isMatch post))) := by
    obtain ⟨k, hk, e, hE⟩ := loop_applied (β := β) (G := G) (quote := quote) (pfx := pfx) he pre post
      (blen pre) 0 rfl
    rw [runs_plain, parses_iff]
    unfold escapeStrval
    rw [parseL_pat, ← runs_iff, runs_plain, (C13_repeat _ _ _).1]
    refine ⟨k, _, by simpa using hk, ?_, trivial, .inr ⟨trivial, e, hE⟩⟩
    simp [Bound.allowsFrom]
  constructor
  · intro h; exact h.unique key
  · rintro rfl; exact key

/-- The body is a prefix, and it stops only at the end of the input or at a quote
that is not part of an escape pair. -/
theorem C48_body_is_maximal (quote pfx : ι) (esc : ι → Bool) (post : List ι) :
    ∃ rest, post = strBody quote pfx esc post ++ rest ∧
      (rest = [] ∨ ∃ t, rest = quote :: t ∧ ¬ StartsPair pfx esc rest) := by
  generalize hn : post.length = n
  induction n using Nat.strongRecOn generalizing post with
  | _ n ih =>
    match post with
    | [] => exact ⟨[], rfl, .inl rfl⟩
    | [x] =>
      by_cases hx : x = quote
      · exact ⟨[x], by simp [strBody, hx], .inr ⟨[], by rw [hx], by rintro ⟨y, t, h, _⟩; cases h⟩⟩
      · exact ⟨[], by simp [strBody, hx], .inl rfl⟩
    | x :: y :: l =>
      by_cases hp : x = pfx ∧ esc y = true
      · obtain ⟨rest, h1, h2⟩ := ih l.length (by simp at hn; omega) l rfl
        refine ⟨rest, ?_, h2⟩
        simp only [strBody, hp, and_self, if_true, List.cons_append, ← h1]
      · have hnp : ¬ StartsPair pfx esc (x :: y :: l) := by
          rintro ⟨y', t', h', hy⟩; cases h'; exact hp ⟨rfl, hy⟩
        by_cases hx : x = quote
        · refine ⟨x :: y :: l, ?_, .inr ⟨y :: l, by rw [hx], hnp⟩⟩
          rw [hx] at hnp ⊢
          rw [strBody_stop _ hnp]; rfl
        · obtain ⟨rest, h1, h2⟩ := ih (y :: l).length (by simp at hn; simp; omega) (y :: l) rfl
          refine ⟨rest, ?_, h2⟩
          rw [strBody_plain x _ hx hnp, List.cons_append, ← h1]

theorem strBody_escapeText {needs esc : ι → Bool} (hq : needs quote = true)
    (hp : needs pfx = true) (he : ∀ x, needs x = true → esc x = true) (text rest : List ι)
    (hr : ¬ StartsPair pfx esc (quote :: rest)) :
    strBody quote pfx esc (escapeText pfx needs text ++ quote :: rest) = escapeText pfx needs text := by
  induction text with
  | nil => exact strBody_stop _ hr
  | cons x l ih =>
    simp only [escapeText]
    split
    · next hx => rw [List.cons_append, List.cons_append, strBody_pair _ _ (he x hx), ih]
    · next hx =>
      rw [List.cons_append, strBody_plain, ih]
      · rintro rfl; exact hx hq
      · rintro ⟨y, t, h, _⟩
        simp only [List.cons.injEq] at h
        exact hx (h.1 ▸ hp)

/-- **C48 (round trip).** If the quote and the prefix are escapable, then for every
text, its escaped form followed by the closing quote is recognised exactly: no
more and no less. -/
theorem C48_escaped_text_is_recognised (he : esc.Fair) (needs : ι → Bool) (hq : needs quote = true)
    (hp : needs pfx = true) (hn : ∀ x, needs x = true → esc.isMatch x = true) (hqp : quote ≠ pfx)
    (pre text rest : List ι) :
    Runs (β := β) G none (pre ++ (escapeText pfx needs text ++ quote :: rest))
      (escapeStrval quote pfx esc) (blen pre)
      (.ok ⟨blen pre, blen (escapeText pfx needs text)⟩ (blen pre + blen (escapeText pfx needs text))) := by
  rw [C48_escape_strval he, strBody_escapeText hq hp hn]
  rintro ⟨y, t, h, _⟩
  cases h
  exact hqp rfl

/-- A backslash-escaped quote inside, an unescaped one after. -/
example : (Neu.mem ['"', '\\']).Fair (ι := Char) ∧
    Runs (β := Nat) G0 none ['a', '\\', '"', 'b', '"', 'c'] (escapeStrval '"' '\\' (.mem ['"', '\\'])) 0
      (.ok ⟨0, 4⟩ 4) :=
  ⟨C24_fair _ (.inl (by simp [Neu.Plain])), ⟨12, by decide⟩⟩

/-- A text with both special characters. -/
example : escapeText '\\' (fun c => c == '"' || c == '\\') ['a', '"', '\\'] =
    ['a', '\\', '"', '\\', '\\'] := by decide

/-! ## The body without the function -/

/-- `b` is the body of the string that continues with `rest`: read from the left, an escape pair is
taken as a whole; any other character is taken unless it is the quote; the body ends with the text or
before a quote that begins no pair. -/
inductive StringBody (quote pfx : ι) (esc : ι → Bool) : List ι → List ι → Prop where
  | done {rest : List ι} : (rest = [] ∨ ∃ t, rest = quote :: t ∧ ¬ StartsPair pfx esc rest) →
      StringBody quote pfx esc [] rest
  | pair {y : ι} {b rest : List ι} : esc y = true → StringBody quote pfx esc b rest →
      StringBody quote pfx esc (pfx :: y :: b) rest
  | plain {x : ι} {b rest : List ι} : x ≠ quote → ¬ StartsPair pfx esc (x :: (b ++ rest)) →
      StringBody quote pfx esc b rest → StringBody quote pfx esc (x :: b) rest

theorem stringBody_iff {esc : ι → Bool} (b rest : List ι) :
    StringBody quote pfx esc b rest ↔ b = strBody quote pfx esc (b ++ rest) := by
  constructor
  · intro h
    induction h with
    | done h =>
      rcases h with rfl | ⟨t, rfl, h⟩
      · rfl
      · exact (strBody_stop t h).symm
    | pair hy _ ih => rw [List.cons_append, List.cons_append, strBody_pair _ _ hy, ← ih]
    | plain hx hn _ ih => rw [List.cons_append, strBody_plain _ _ hx hn, ← ih]
  · intro h
    induction hk : b.length using Nat.strongRecOn generalizing b with
    | ind k ih =>
      cases b with
      | nil =>
        refine .done ?_
        cases rest with
        | nil => exact .inl rfl
        | cons x l =>
          refine .inr ⟨l, ?_⟩
          by_cases hp : StartsPair pfx esc (x :: l)
          · obtain ⟨y, t, he, hy⟩ := hp
            rw [List.nil_append, he, strBody_pair _ _ hy] at h; cases h
          · by_cases hx : x = quote
            · subst hx; exact ⟨rfl, hp⟩
            · rw [List.nil_append, strBody_plain _ _ hx hp] at h; cases h
      | cons x b =>
        by_cases hp : StartsPair pfx esc (x :: (b ++ rest))
        · obtain ⟨y, t, he, hy⟩ := hp
          have h' := h
          rw [List.cons_append, he, strBody_pair _ _ hy] at h'
          injection h' with hx hb
          cases b with
          | nil => cases hb
          | cons z b =>
            injection hb with hz hb
            subst hx hz
            injection he with _ he
            rw [List.cons_append] at he
            injection he with _ he
            subst he
            exact .pair hy (ih b.length (by simp at hk; omega) b hb rfl)
        · by_cases hx : x = quote
          · subst hx
            rw [List.cons_append, strBody_stop _ hp] at h; cases h
          · rw [List.cons_append, strBody_plain _ _ hx hp] at h
            injection h with _ h
            exact .plain hx hp (ih b.length (by simp at hk; omega) b h rfl)

/-- **C48.** What `escape_strval!(quote, prefix, escapes)` matches, without the function: it always
succeeds, exactly with the body of the string that begins at the position, of which there is one. -/
theorem C48_matches_the_body (he : esc.Fair) (pre post : List ι) (r : Res Span) :
    Runs (β := β) G none (pre ++ post) (escapeStrval quote pfx esc) (blen pre) r ↔
      ∃ b rest, post = b ++ rest ∧ StringBody quote pfx esc.isMatch b rest ∧
        r = .ok ⟨blen pre, blen b⟩ (blen pre + blen b) := by
  rw [C48_escape_strval he]
  constructor
  · rintro rfl
    obtain ⟨rest, hr, _⟩ := C48_body_is_maximal quote pfx esc.isMatch post
    exact ⟨_, rest, hr, (stringBody_iff _ _).mpr (by rw [← hr]), rfl⟩
  · rintro ⟨b, rest, rfl, hb, rfl⟩
    rw [← (stringBody_iff _ _).mp hb]

example : StringBody '"' '\\' (Neu.mem ['"', '\\'] : Neu Char).isMatch ['a', '\\', '"', 'b'] ['"', 'c'] :=
  (stringBody_iff _ _).mpr (by decide)

/-- **C48.** Nothing is lost by escaping: different texts have different escaped forms. -/
theorem C48_escaping_loses_nothing (pfx : ι) (needs : ι → Bool) (hp : needs pfx = true) (t t' : List ι)
    (h : escapeText pfx needs t = escapeText pfx needs t') : t = t' := by
  induction t generalizing t' with
  | nil =>
    cases t' with
    | nil => rfl
    | cons x t' => simp only [escapeText] at h; split at h <;> cases h
  | cons x t ih =>
    cases t' with
    | nil => simp only [escapeText] at h; split at h <;> cases h
    | cons y t' =>
      simp only [escapeText] at h
      by_cases hx : needs x = true <;> by_cases hy : needs y = true
      · rw [if_pos hx, if_pos hy] at h
        injection h with _ h; injection h with h1 h2
        rw [h1, ih t' h2]
      · rw [if_pos hx, if_neg hy] at h
        injection h with h1 h2
        rw [← h1] at hy; exact absurd hp hy
      · rw [if_neg hx, if_pos hy] at h
        injection h with h1 h2
        rw [h1] at hx; exact absurd hp hx
      · rw [if_neg hx, if_neg hy] at h
        injection h with h1 h2
        rw [h1, ih t' h2]

end Neure
