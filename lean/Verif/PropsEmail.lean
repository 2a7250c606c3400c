import Verif.Email
import Verif.Takes
import Verif.PropsClass
/-!
# C64: the e-mail parser of the README

The statements speak about inputs `s` only; `Split`, `RegexSplit` and `ParserSplit`
are in `Email.lean`.
-/

namespace Neure

set_option linter.unusedSectionVars false
set_option linter.unusedSimpArgs false

open Demo

namespace Email

variable {β σ : Type} {G : Rules Char β}

theorem alpha_iff (c : Char) : alpha.isMatch c = true ↔ 'a' ≤ c ∧ c ≤ 'z' := by
  have e : ∀ a b k, (RangeExpr.rangeIncl a b).toCRange.contains k = true ↔ a ≤ k ∧ k ≤ b := by
    intro a b k; simp [RangeExpr.toCRange, CRange.contains]
  simp only [alpha, Neu.isMatch, e, Item.key, Char.le_def, UInt32.le_iff_toNat_le]
  rfl

theorem num_iff (c : Char) : num.isMatch c = true ↔ '0' ≤ c ∧ c ≤ '9' := by
  have e : ∀ k, ((Unit.toDigit 10 k).isSome = true ↔ 48 ≤ k ∧ k ≤ 57) := by
    intro k
    simp only [Unit.toDigit, Unit.codeDigit, Unit.codeLower, Unit.codeUpper, Unit.within]
    grind
  simp only [num, Unit.digit, Unit.byCode, Neu.isMatch, e, Item.key, Char.le_def, UInt32.le_iff_toNat_le,
    Char.toNat]
  rfl

theorem name_iff (c : Char) :
    (Macro.orAll [alpha, num, .item '_', .item '.', .item '+', .item '-']).isMatch c = true ↔ NameChar c := by
  simp only [Macro.orAll, List.foldl, Neu.isMatch, Bool.or_eq_true, alpha_iff, num_iff, NameChar,
    decide_eq_true_eq, List.mem_cons, List.not_mem_nil, Bool.false_eq_true, false_or, or_false]
  grind

theorem domain_iff (c : Char) :
    (Neu.or (.or (.or alpha num) (.item '.')) (.item '-')).isMatch c = true ↔ DomainChar c := by
  simp only [Neu.isMatch, Bool.or_eq_true, alpha_iff, num_iff, DomainChar,
    decide_eq_true_eq, List.mem_cons, List.not_mem_nil, Bool.false_eq_true, false_or, or_false]
  grind

theorem domain'_iff (c : Char) :
    (Macro.orAll [alpha, num, .item '.', .item '-']).isMatch c = true ↔ DomainChar c := by
  simp only [Macro.orAll, List.foldl, Neu.isMatch, Bool.or_eq_true, alpha_iff, num_iff, DomainChar,
    decide_eq_true_eq, List.mem_cons, List.not_mem_nil, Bool.false_eq_true, false_or, or_false]
  grind

theorem post_iff (c : Char) : (Macro.orAll [alpha, .item '.']).isMatch c = true ↔ PostChar c := by
  simp only [Macro.orAll, List.foldl, Neu.isMatch, Bool.or_eq_true, alpha_iff, num_iff, PostChar,
    decide_eq_true_eq, Bool.false_eq_true, false_or, or_false]
  grind

/-- The pattern inside the condition: a dot, no dot up to the end. -/
def lastDot : Pat Char β :=
  .thn (.thn (.lit ['.']) (.many0 (.not (.item '.')) .empty)) .anchorEnd

theorem takes_lastDot : Takes (β := β) G lastDot fun _ t y => y = [] ∧ ∃ b, t = '.' :: b ∧ '.' ∉ b := by
  refine (takes_thn (takes_thn (takes_lit _) (takes_many0 _)) takes_end).congr fun a t y => ?_
  constructor
  · rintro ⟨_, _, rfl, ⟨_, b, rfl, rfl, h, -⟩, rfl, rfl⟩
    refine ⟨rfl, b, by simp, fun hd => ?_⟩
    have := h _ hd
    simp [Neu.isMatch] at this
  · rintro ⟨rfl, b, rfl, h⟩
    refine ⟨'.' :: b, [], by simp, ⟨['.'], b, rfl, rfl, fun x hx => ?_, fun x b h => by cases h⟩, rfl, rfl⟩
    simp only [Neu.isMatch, Bool.not_eq_true', decide_eq_false_iff_not]
    rintro rfl; exact h hx

/-- The last dot of the input. -/
def IsLast (x : Char) (l : List Char) : Prop := x = '.' ∧ '.' ∉ l

theorem matches_lastDot (x : Char) (l : List Char) : Matches (β := β) G none (x :: l) lastDot 0 ↔ IsLast x l := by
  have h := takes_lastDot (β := β) (G := G) [] (x :: l)
  simp only [List.nil_append, show blen ([] : List Char) = 0 from rfl] at h
  constructor
  · rintro ⟨s, o', hr⟩
    obtain ⟨t, y, e, ⟨rfl, b, rfl, hb⟩, -, -⟩ := (h s o').mp hr
    simp at e; exact ⟨e.1, e.2 ▸ hb⟩
  · rintro ⟨rfl, hl⟩
    exact ⟨_, _, (h _ _).mpr ⟨_, [], by simp, ⟨rfl, _, rfl, hl⟩, rfl, rfl⟩⟩

theorem fails_lastDot (x : Char) (l : List Char) : Fails (β := β) G none (x :: l) lastDot 0 ↔ ¬ IsLast x l := by
  constructor
  · rintro ⟨e, o', h⟩ hl
    obtain ⟨s, o2, h2⟩ := (matches_lastDot (G := G) x l).mpr hl
    cases Runs.unique h h2
  · intro hl
    by_cases hx : x = '.'
    · subst hx
      have hl : '.' ∈ l := by simpa [IsLast] using hl
      obtain ⟨s, o', h1⟩ : ∃ s o', Runs (β := β) G none ('.' :: l)
          (.thn (.lit ['.']) (.many0 (.not (.item '.')) .empty)) 0 (.ok s o') ∧ o' < blen ('.' :: l) := by
        have h := takes_thn (takes_lit (β := β) (G := G) ['.']) (takes_many0 (.not (.item '.'))) [] ('.' :: l)
        let u : Neu Char := .not (.item '.')
        have hm := maximal_split u.isMatch l
        refine ⟨_, _, (h _ _).mpr ⟨'.' :: l.takeWhile u.isMatch, l.dropWhile u.isMatch, by simp,
          ⟨['.'], _, rfl, rfl, hm⟩, rfl, rfl⟩, ?_⟩
        have e : blen l = blen (l.takeWhile u.isMatch) + blen (l.dropWhile u.isMatch) := by
          rw [← blen_append, List.takeWhile_append_dropWhile]
        have : 0 < blen (l.dropWhile u.isMatch) := by
          cases hdw : l.dropWhile u.isMatch with
          | cons a x => exact blen_pos_cons _ _
          | nil =>
            have h' := List.takeWhile_append_dropWhile (p := u.isMatch) (l := l)
            rw [hdw, List.append_nil] at h'
            have := hm.1 '.' (by rw [h']; exact hl)
            simp [u, Neu.isMatch] at this
        simp only [blen_cons, show blen ([] : List Char) = 0 from rfl]
        omega
      refine ⟨.anchorEnd, _, ((C08_then _ _ _).2.1 _ _).mpr ⟨rfl, .inr ⟨s, o', o', h1.1, ?_⟩⟩⟩
      · rw [runs_plain, (C12_anchors _ _).2.1, if_neg (by omega)]
    · refine ⟨.literal, _, ((C08_then _ _ _).2.1 _ _).mpr ⟨rfl, .inl ⟨0, ((C08_then _ _ _).2.1 _ _).mpr ⟨rfl,
        .inl ⟨0, ?_⟩⟩⟩⟩⟩
      rw [runs_plain]
      exact (C12_literal [] (x :: l) ['.'] rfl _).mpr
        (.inr ⟨by rintro ⟨t, e⟩; simp at e; exact hx e.1, rfl⟩)

/-- What the domain takes. -/
def Dom (t y : List Char) : Prop :=
  t.length ≤ 256 ∧ (∀ a x b, t = a ++ x :: b → DomainChar x ∧ ¬ IsLast x (b ++ y)) ∧
    (t.length < 256 → ∀ x b, y = x :: b → ¬ DomainChar x ∨ IsLast x b)

theorem takes_dom (u : Neu Char) (hf : u.Fair) (hu : ∀ c, u.isMatch c = true ↔ DomainChar c) :
    Takes (β := β) G (.between 0 256 u cond) fun _ t y => Dom t y := by
  have hM : ∀ x l, Matches (β := β) G none (x :: l) (.assert lastDot false) 0 ↔ ¬ IsLast x l := by
    intro x l
    rw [← fails_lastDot (β := β) (G := G)]
    simp only [Matches, runs_plain, (C11_assert _ false 0).1]
    simp
  have hF : ∀ x l, Fails (β := β) G none (x :: l) (.assert lastDot false) 0 ↔ IsLast x l := by
    intro x l
    rw [← matches_lastDot (β := β) (G := G)]
    simp only [Fails, runs_plain, (C11_assert _ false 0).2.1]
    simp
  have hu' : ∀ c, u.isMatch c = false ↔ ¬ DomainChar c := fun c => by rw [← hu]; simp
  intro pre rest s o'
  rw [runs_plain]
  show Parses _ _ _ (.between 0 256 u (.regex (.assert lastDot false))) _ _ ↔ _
  rw [C26_regex_cond_between 0 256 u hf _ pre rest rfl]
  simp only [List.cons_append, hM, hF, hu, hu', Dom, Nat.zero_le, true_and]
  constructor
  · rintro ⟨run, y, h1, h2, h3, h4, h5, h6⟩; exact ⟨run, y, h1, ⟨h2, h3, h4⟩, h5, h6⟩
  · rintro ⟨run, y, h1, ⟨h2, h3, h4⟩, h5, h6⟩; exact ⟨run, y, h1, h2, h3, h4, h5, h6⟩

theorem takes_domain : Takes (β := β) G domain fun _ t y => Dom t y :=
  takes_dom _ (C24_fair _ (.inl (by simp [Neu.Plain, alpha, num, Unit.digit, Unit.byCode]))) domain_iff

theorem takes_domain' : Takes (β := β) G domain' fun _ t y => Dom t y :=
  takes_dom _ (C24_fair _ (.inl (by simp [Neu.Plain, Macro.orAll, alpha, num, Unit.digit, Unit.byCode]))) domain'_iff

theorem takes_name : Takes (β := β) G name fun _ t y =>
    t ≠ [] ∧ (∀ c ∈ t, NameChar c) ∧ ∀ x b, y = x :: b → ¬ NameChar x :=
  (takes_many1 _).congr fun _ t y => by simp only [Maximal, name_iff, ← Bool.not_eq_true]

theorem takes_post : Takes (β := β) G post fun _ t y => 2 ≤ t.length ∧ t.length ≤ 6 ∧
    (∀ c ∈ t, PostChar c) ∧ (t.length < 6 → ∀ x b, y = x :: b → ¬ PostChar x) :=
  (takes_between 2 6 _ (C24_fair _ (.inl (by simp [Neu.Plain, Macro.orAll, alpha])))).congr fun _ t y => by
    simp only [MaximalUpTo, post_iff, ← Bool.not_eq_true]

theorem dot_domain : DomainChar '.' := by decide +kernel
theorem at_not_name : ¬ NameChar '@' := by decide +kernel
theorem at_not_domain : ¬ DomainChar '@' := by decide +kernel

theorem parserSplit_iff {s n d p : List Char} : ParserSplit s n d p ↔
    s = n ++ (['@'] ++ (d ++ (['.'] ++ p))) ∧
    (n ≠ [] ∧ (∀ c ∈ n, NameChar c) ∧ ∀ x b, ['@'] ++ (d ++ (['.'] ++ p)) = x :: b → ¬ NameChar x) ∧
    Dom d (['.'] ++ p) ∧ (2 ≤ p.length ∧ p.length ≤ 6 ∧ ∀ c ∈ p, PostChar c) := by
  constructor
  · rintro ⟨⟨rfl, h1, h2, h3, h4, h5, h6⟩, h7⟩
    refine ⟨by simp, ⟨h1, h2, fun x b e => by simp at e; rw [← e.1]; exact at_not_name⟩,
      ⟨by omega, fun a x b e => ⟨h3 _ (by simp [e]), fun hl => hl.2 (by simp)⟩, fun hlt x b e => .inr ?_⟩, h5, h6, h4⟩
    simp at e
    refine ⟨e.1.symm, e.2 ▸ ?_⟩
    rcases h7 with h7 | h7
    · exact h7.1
    · omega
  · rintro ⟨rfl, ⟨h1, h2, -⟩, ⟨h3, h4, h5⟩, h6, h7, h8⟩
    refine ⟨⟨by simp, h1, h2, fun c hc => ?_, h8, h6, h7⟩, ?_⟩
    · obtain ⟨a, b, rfl⟩ := List.append_of_mem hc
      exact (h4 a c b rfl).1
    · by_cases hl : d.length < 256
      · rcases h5 hl '.' p (by simp) with h | h
        · exact absurd dot_domain h
        · exact .inl ⟨h.2, by omega⟩
      · exact .inr (by omega)

theorem cut_unique {x : Char} : ∀ {a b a' b' : List Char}, x ∉ a → x ∉ a' →
    a ++ x :: b = a' ++ x :: b' → a = a' ∧ b = b'
  | [], _, [], _, _, _, h => by simpa using h
  | [], _, c :: a', _, _, h2, h => by simp at h; simp [h.1] at h2
  | c :: a, _, [], _, h1, _, h => by simp at h; simp [h.1] at h1
  | c :: a, b, c' :: a', b', h1, h2, h => by
    simp only [List.cons_append, List.cons.injEq] at h
    obtain ⟨rfl, h⟩ := h
    have := cut_unique (fun hx => h1 (List.mem_cons_of_mem _ hx)) (fun hx => h2 (List.mem_cons_of_mem _ hx)) h
    exact ⟨by rw [this.1], this.2⟩

theorem Split.cut {s n d p n' d' p' : List Char} (h : Split s n d p) (h' : Split s n' d' p') :
    n = n' ∧ d ++ '.' :: p = d' ++ '.' :: p' :=
  cut_unique (fun h1 => at_not_name (h.name_ok _ h1)) (fun h1 => at_not_name (h'.name_ok _ h1))
    (h.eq ▸ h'.eq)

theorem last_cut {x : Char} : ∀ {a b a' b' : List Char}, x ∉ b → a ++ x :: b = a' ++ x :: b' →
    a'.length ≤ a.length
  | _, _, [], _, _, _ => Nat.zero_le _
  | [], b, c :: a', b', h, e => by
    simp only [List.nil_append, List.cons_append, List.cons.injEq] at e
    rw [e.2] at h; simp at h
  | c :: a, b, c' :: a', b', h, e => by
    simp only [List.cons_append, List.cons.injEq] at e
    have := last_cut h e.2
    simpa using this

end Email

open Email

variable {β σ : Type} {G : Rules Char β}

/-- **C64 (exact language).** The e-mail parser of the README accepts an input exactly
if it is a non-empty name over `[a-z0-9_.+-]`, an `@`, a domain over `[a-z0-9.-]`, a
dot and two to six characters of `[a-z.]`, where the domain reaches to the last dot
of the input (and has at most 256 characters) or has exactly 256 characters.  An
accepted input is matched completely. -/
theorem C64_email_exact (s : List Char) (sp : Span) (o' : Nat) :
    Runs (β := β) G none s email 0 (.ok sp o') ↔
      (∃ n d p, ParserSplit s n d p) ∧ sp = ⟨0, blen s⟩ ∧ o' = blen s := by
  have h := takes_thn (takes_sepOnce (takes_thn (takes_start (β := β) (G := G)) takes_name) (takes_lit ['@'])
    (takes_sepOnce takes_domain (takes_lit ['.']) takes_post)) takes_end [] s sp o'
  simp only [List.nil_append, show blen ([] : List Char) = 0 from rfl, Nat.zero_add] at h
  refine h.trans ?_
  constructor
  · rintro ⟨_, y, rfl, ⟨_, _, rfl, ⟨_, _, _, rfl, ⟨_, n, rfl, ⟨-, rfl⟩, hn⟩, rfl, d, _, p, rfl, hd, rfl, hp⟩,
      rfl, rfl⟩, rfl, rfl⟩
    refine ⟨⟨n, d, p, parserSplit_iff.mpr ⟨by simp, by simpa using hn, by simpa using hd,
      hp.1, hp.2.1, hp.2.2.1⟩⟩, by simp, by simp⟩
  · rintro ⟨⟨n, d, p, hs⟩, rfl, rfl⟩
    obtain ⟨rfl, hn, hd, hp⟩ := parserSplit_iff.mp hs
    exact ⟨_, [], (List.append_nil _).symm, ⟨_, [], (List.append_nil _).symm,
      ⟨n, ['@'], _, rfl, ⟨[], n, rfl, ⟨trivial, rfl⟩, by simpa using hn⟩, rfl,
        d, ['.'], p, rfl, by simpa using hd, rfl, hp.1, hp.2.1, hp.2.2, fun _ x b e => by cases e⟩, rfl, rfl⟩, rfl, rfl⟩

/-- **C64 (captures).** The capturing version accepts the same inputs and returns the
name, the domain and the last part. -/
theorem C64_email_captures (s : List Char) (st : σ) (v : Val (List Char)) (st' : σ) (o' : Nat) :
    Constructs G0 extractH none s emailCap st 0 (.ok v st' o') ↔
      ∃ n d p, ParserSplit s n d p ∧ v = .pair (.base n) (.pair (.base d) (.base p)) ∧
        st' = st ∧ o' = blen s := by
  have hH : TextH (extractH (ι := Char) (σ := σ)) fun t => t := C63_handles_extract
  have h := makes_enclose takes_start (makes_map (makes_sepOnce
    (makes_leaf (p := name) hH trivial takes_name) (takes_lit ['@'])
    (makes_sepOnce (makes_leaf (p := domain') hH trivial (takes_domain' (G := G0))) (takes_lit ['.'])
      (makes_leaf (p := post) hH trivial takes_post))) fun v => .ok v) takes_end [] s st v st' o'
  simp only [List.nil_append, show blen ([] : List Char) = 0 from rfl, Nat.zero_add] at h
  refine h.trans ?_
  constructor
  · rintro ⟨_, y, rfl, ⟨_, _, _, rfl, ⟨-, rfl⟩, ⟨_, ⟨n, _, _, _, _, rfl, rfl, ⟨hn, rfl⟩, rfl,
      ⟨d, _, p, _, _, rfl, rfl, ⟨hd, rfl⟩, rfl, ⟨hp, rfl⟩⟩⟩, e⟩, rfl, rfl⟩, rfl, rfl⟩
    cases e
    exact ⟨n, d, p, parserSplit_iff.mpr ⟨by simp, by simpa using hn, by simpa using hd,
      hp.1, hp.2.1, hp.2.2.1⟩, rfl, rfl, by simp⟩
  · rintro ⟨n, d, p, hs, rfl, rfl, rfl⟩
    obtain ⟨rfl, hn, hd, hp⟩ := parserSplit_iff.mp hs
    exact ⟨_, [], (List.append_nil _).symm, ⟨[], _, [], by simp, ⟨trivial, rfl⟩, ⟨_, ⟨n, ['@'], _, _, _, rfl, rfl,
      ⟨by simpa using hn, rfl⟩, rfl, d, ['.'], p, _, _, rfl, rfl, ⟨by simpa using hd, rfl⟩, rfl,
      ⟨hp.1, hp.2.1, hp.2.2, fun _ x b e => by cases e⟩, rfl⟩, rfl⟩, rfl, rfl⟩, rfl, rfl⟩

/-- The captures are determined by the input. -/
theorem C64_captures_unique {s n d p n' d' p' : List Char} (h : ParserSplit s n d p)
    (h' : ParserSplit s n' d' p') : n = n' ∧ d = d' ∧ p = p' := by
  have h1 := (C64_email_captures s () _ () (blen s)).mpr ⟨n, d, p, h, rfl, rfl, rfl⟩
  have h2 := (C64_email_captures s () _ () (blen s)).mpr ⟨n', d', p', h', rfl, rfl, rfl⟩
  have := Constructs.unique h1 h2
  simp at this
  exact this

/-- **C64 (agreement with the regular expression), partial.**  The full statement, "the
parser accepts exactly the inputs of `^([a-z0-9_\.\+-]+)@([\da-z\.-]+)\.([a-z\.]{2,6})$` and
captures the same parts", fails (counterexamples below).  What holds:
* every input of the expression whose part after the last dot has two to six letters
  and whose domain up to there has at most 256 characters is accepted, and the parts
  captured are those of the expression, which takes the longest domain it can;
* an accepted input is in the language of the expression unless its domain is empty. -/
theorem C64_email_regex_partial (s : List Char) :
    (∀ n d p, RegexSplit s n d p → '.' ∉ p → d.length ≤ 256 →
      Constructs G0 extractH none s emailCap () 0
        (.ok (.pair (.base n) (.pair (.base d) (.base p))) () (blen s)) ∧
      ∀ n' d' p', RegexSplit s n' d' p' → n' = n ∧ d'.length ≤ d.length) ∧
    (∀ v o', Constructs G0 extractH none s emailCap () 0 (.ok v () o') →
      ∃ n d p, v = .pair (.base n) (.pair (.base d) (.base p)) ∧
        (RegexSplit s n d p ∨ d = [] ∧ s = n ++ '@' :: '.' :: p)) := by
  refine ⟨fun n d p h hp hd => ⟨?_, fun n' d' p' h' => ?_⟩, fun v o' h => ?_⟩
  · exact (C64_email_captures s () _ () _).mpr ⟨n, d, p, ⟨h.1, .inl ⟨hp, hd⟩⟩, rfl, rfl, rfl⟩
  · obtain ⟨rfl, e⟩ := h.1.cut h'.1
    exact ⟨rfl, last_cut hp e⟩
  · obtain ⟨n, d, p, hs, rfl, -, -⟩ := (C64_email_captures s () _ () _).mp h
    refine ⟨n, d, p, rfl, ?_⟩
    by_cases hd : d = []
    · subst hd; exact .inr ⟨rfl, hs.1.eq⟩
    · exact .inl ⟨hs.1, hd⟩

/-- Non-vacuity: an address with dots in the name and in the domain. -/
example : RegexSplit "ab.c@ex.am.com".toList "ab.c".toList "ex.am".toList "com".toList :=
  ⟨⟨by decide, by decide, by decide +kernel, by decide +kernel, by decide +kernel, by decide, by decide⟩,
    by decide⟩

example : Constructs (σ := Unit) G0 extractH none "ab.c@ex.am.com".toList emailCap () 0
    (.ok (.pair (.base "ab.c".toList) (.pair (.base "ex.am".toList) (.base "com".toList))) () 14) :=
  (C64_email_captures _ () _ () _).mpr ⟨_, _, _, ⟨⟨by decide, by decide, by decide +kernel,
    by decide +kernel, by decide +kernel, by decide, by decide⟩, .inl ⟨by decide, by decide⟩⟩, rfl, rfl, by decide⟩

/-- An empty domain is accepted by the parser and not by the expression. -/
theorem C64_empty_domain_counterexample :
    Matches (β := β) G none "a@.com".toList email 0 ∧
      ∀ n d p, ¬ RegexSplit "a@.com".toList n d p := by
  have hs : Split "a@.com".toList ['a'] [] "com".toList :=
    ⟨by decide, by decide, by decide +kernel, by decide, by decide +kernel, by decide, by decide⟩
  refine ⟨⟨_, _, (C64_email_exact _ _ _).mpr ⟨⟨_, _, _, hs, .inl ⟨by decide, by decide⟩⟩, rfl, rfl⟩⟩, ?_⟩
  rintro n d p ⟨h, hd⟩
  have := last_cut (x := '.') (by decide) (hs.cut h).2
  exact hd (List.length_eq_zero_iff.mp (by simpa using this))

/-- A last part with a dot is accepted by the expression and not by the parser. -/
theorem C64_dotted_end_counterexample :
    RegexSplit "a@b.c.d".toList ['a'] ['b'] "c.d".toList ∧
      ¬ Matches (β := β) G none "a@b.c.d".toList email 0 := by
  have hs : Split "a@b.c.d".toList ['a'] ['b'] "c.d".toList :=
    ⟨by decide, by decide, by decide +kernel, by decide +kernel, by decide +kernel, by decide, by decide⟩
  refine ⟨⟨hs, by decide⟩, ?_⟩
  rintro ⟨sp, o', h⟩
  obtain ⟨⟨n, d, p, h, h1⟩, -⟩ := (C64_email_exact _ _ _).mp h
  have e : ['b', '.', 'c', '.', 'd'] = d ++ '.' :: p := (hs.cut h).2
  have l := congrArg List.length e
  simp at l
  have hp := h.post_min
  rcases h1 with ⟨h1, -⟩ | h1
  · match d, e with
    | [], e => simp at e
    | [_], e => simp at e; rw [← e.2] at h1; simp at h1
    | [_, _], e => simp at e
    | _ :: _ :: _ :: d, e => simp at l; omega
  · omega

/-- A domain of more than 256 characters is accepted by the expression and not by the
parser. -/
theorem C64_long_domain_counterexample :
    RegexSplit ('a' :: '@' :: (List.replicate 257 'b' ++ ".com".toList)) ['a'] (List.replicate 257 'b')
      "com".toList ∧
      ¬ Matches (β := β) G none ('a' :: '@' :: (List.replicate 257 'b' ++ ".com".toList)) email 0 := by
  have hs : Split ('a' :: '@' :: (List.replicate 257 'b' ++ ".com".toList)) ['a'] (List.replicate 257 'b')
      "com".toList := by
    refine ⟨rfl, by decide, by decide +kernel, fun c hc => ?_, by decide +kernel, by decide, by decide⟩
    rw [List.eq_of_mem_replicate hc]; decide +kernel
  refine ⟨⟨hs, by decide⟩, ?_⟩
  rintro ⟨sp, o', h⟩
  obtain ⟨⟨n, d, p, h, h1⟩, -⟩ := (C64_email_exact _ _ _).mp h
  have e := (hs.cut h).2
  have l := congrArg List.length e
  simp only [List.length_append, List.length_cons, List.length_replicate] at l
  have e3 : ("com".toList).length = 3 := by decide
  have hp := h.post_max
  rcases h1 with ⟨h1, h2⟩ | h1
  · have := last_cut h1 e.symm
    rw [List.length_replicate] at this; omega
  · have e2 := congrArg (fun l => l[256]?) e
    rw [List.getElem?_append_left (by rw [List.length_replicate]; omega), List.getElem?_replicate,
      if_pos (by omega), List.getElem?_append_right (by omega), h1] at e2
    simp at e2

end Neure
