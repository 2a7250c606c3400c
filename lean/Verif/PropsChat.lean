import Verif.ChatLemmas
/-!
# C105: the chat log of the documentation

The example of `prefix` (`src/ctor.rs:796-805`) reads exactly the records that stand at the position, whatever the names, the
times and the white space between the parts are.
-/

namespace Neure.Chat

set_option linter.unusedSectionVars false
set_option linter.unusedSimpArgs false

open Demo

variable {G : Rules Char (List Char)}

/-! ## Specification -/

/-- One record. -/
structure Rec where
  hour : List Char
  minute : List Char
  nick : List Char
  what : List Char

/-- White space only. -/
def Blank (w : List Char) : Prop := ∀ c ∈ w, c ∈ Chars.unicodeBlanks

/-- Two decimal digits each, a name that is not empty and has no white space, `left` or `joined`. -/
def Rec.Good (r : Rec) : Prop :=
  (r.hour.length = 2 ∧ ∀ c ∈ r.hour, c ∈ Chars.ofRadix 10) ∧
  (r.minute.length = 2 ∧ ∀ c ∈ r.minute, c ∈ Chars.ofRadix 10) ∧
  (r.nick ≠ [] ∧ ∀ c ∈ r.nick, c ∉ Chars.unicodeBlanks) ∧
  (r.what = ['l', 'e', 'f', 't'] ∨ r.what = ['j', 'o', 'i', 'n', 'e', 'd'])

/-- `[hh:mm]`, `***`, the name and the status, with white space between them and behind; between the name and the status
there must be some. -/
def Written (x : List Char) (r : Rec) : Prop :=
  r.Good ∧ ∃ w1 w2 w3 w4, Blank w1 ∧ Blank w2 ∧ Blank w3 ∧ w3 ≠ [] ∧ Blank w4 ∧
    x = ['['] ++ r.hour ++ [':'] ++ r.minute ++ [']'] ++ w1 ++ ['*', '*', '*'] ++ w2 ++ r.nick ++ w3 ++ r.what ++ w4

/-- Records one after the other. -/
inductive Records : List Char → List Rec → Prop
  | nil : Records [] []
  | cons {x y r rs} : Written x r → Records y rs → Records (x ++ y) (r :: rs)

/-- The value of a record: `((hour, minute), (name, status))`. -/
def Rec.value (r : Rec) : V := .pair (.pair (.base r.hour) (.base r.minute)) (.pair (.base r.nick) (.base r.what))

/-- How a record may be printed. -/
def Rec.print (r : Rec) : List Char :=
  ['['] ++ r.hour ++ [':'] ++ r.minute ++ [']', ' ', '*', '*', '*', ' '] ++ r.nick ++ [' '] ++ r.what ++ ['\n']

/-! ## One record -/

/-- No white space at the beginning. -/
def BlankOff : List Char → Prop := Off (· ∈ Chars.unicodeBlanks)

theorem passes_ws : Passes G (.many0 Unit.whitespace .empty) fun a t => Blank a ∧ BlankOff t := by
  have h := passes_many0 (G := G) Unit.whitespace
  simp only [(C59_whitespace_control _).1] at h
  exact h

theorem reads_skipWs {p : Pat Char (List Char)} {P} (h : Reads G p P) :
    Reads G (Api.skipWs p) fun x t v => ∃ y z, x = y ++ z ∧ P y (z ++ t) v ∧ Blank z ∧ BlankOff t :=
  reads_suf h passes_ws

theorem reads_num : Reads G num fun a _ v => (a.length = 2 ∧ ∀ c ∈ a, c ∈ Chars.ofRadix 10) ∧ v = .base a := by
  have h := reads_count (G := G) 2 (Unit.digit 10) (C24_fair _ (.inl trivial))
  simp only [(C59_digit 10 (by decide) _).1] at h
  exact h

theorem Reads.congr {p : Pat Char (List Char)} {P Q} (h : Reads G p P) (e : ∀ x t v, P x t v ↔ Q x t v) : Reads G p Q :=
  ⟨fun pre rest v o' => by simp only [← e]; exact h.ok pre rest v o', h.total⟩

theorem reads_stars : Reads G (.between 3 3 (.item '*') .empty) fun a _ v => a = ['*', '*', '*'] ∧ v = .base a := by
  have h := reads_count (G := G) 3 (.item '*') (C24_fair _ (.inl trivial))
  have e : ∀ a : List Char, (a.length = 3 ∧ ∀ c ∈ a, (Neu.item '*').isMatch c = true) ↔ a = ['*', '*', '*'] := by
    intro a
    constructor
    · rintro ⟨h1, h2⟩
      rw [show ['*', '*', '*'] = List.replicate 3 '*' from rfl, List.eq_replicate_iff]
      refine ⟨h1, fun c hc => ?_⟩
      have := h2 c hc
      simpa [Neu.isMatch, eq_comm] using this
    · rintro rfl; simp [Neu.isMatch]
  simpa only [e] using h

theorem passes_star : Passes G star fun x t => ∃ z, x = ['*', '*', '*'] ++ z ∧ Blank z ∧ BlankOff t := by
  have h := passes_of_reads (reads_skipWs (reads_stars (G := G))) ?_ ?_ ?_
  · constructor
    · intro pre rest o'
      refine (h.ok pre rest o').trans ?_
      constructor
      · rintro ⟨a, t, e, ⟨v, y, z, rfl, ⟨rfl, _⟩, h1, h2⟩, ho⟩
        exact ⟨_, t, e, ⟨z, rfl, h1, h2⟩, ho⟩
      · rintro ⟨a, t, e, ⟨z, rfl, h1, h2⟩, ho⟩
        exact ⟨_, t, e, ⟨_, _, z, rfl, ⟨rfl, rfl⟩, h1, h2⟩, ho⟩
    · exact h.total
  · refine CAll.intro trivial ?_
    intro q hq
    simp [CChild, Api.skipWs] at hq
    subst hq
    exact CAll.intro trivial fun q hq => by simp [CChild] at hq
  · refine All.intro trivial ?_
    rintro q (rfl | rfl) <;> exact All.intro trivial fun q hq => by simp [Child, Cond.Has] at hq
  · refine All.intro trivial ?_
    rintro q (rfl | rfl) <;> exact All.intro trivial fun q hq => by simp [Child, Cond.Has] at hq

theorem reads_nick : Reads G (.many1 (.not Unit.whitespace) .empty) fun a t v =>
    (a ≠ [] ∧ (∀ c ∈ a, c ∉ Chars.unicodeBlanks) ∧ Off (· ∉ Chars.unicodeBlanks) t) ∧ v = .base a := by
  have h := reads_many1 (G := G) (.not Unit.whitespace)
  have e : ∀ c, (Neu.not Unit.whitespace).isMatch c = true ↔ c ∉ Chars.unicodeBlanks := by
    intro c
    rw [← (C59_whitespace_control c).1]
    simp [Neu.isMatch]
  simpa only [e] using h

theorem reads_what : Reads G (.or (.lit ['l', 'e', 'f', 't']) (.lit ['j', 'o', 'i', 'n', 'e', 'd'])) fun a _ v =>
    (a = ['l', 'e', 'f', 't'] ∧ v = .base a) ∨ (a = ['j', 'o', 'i', 'n', 'e', 'd'] ∧ v = .base a) :=
  reads_or (reads_lit _) (reads_lit _) (by
    rintro y t v y' t' v' e ⟨rfl, _⟩ ⟨rfl, _⟩
    simp at e)

theorem reads_line : Reads G line fun x t v => ∃ r, Written x r ∧ BlankOff t ∧ v = r.value := by
  have htime := reads_skipWs (reads_enclose (G := G) (passes_lit ['[']) (reads_sepOnce reads_num (passes_lit [':']) reads_num)
    (passes_lit [']']))
  have h := reads_thn htime (reads_thn (reads_pre passes_star (reads_skipWs reads_nick)) (reads_skipWs reads_what))
  have off : ∀ c l t, c ∉ Chars.unicodeBlanks → BlankOff (c :: l ++ t) := by
    intro c l t hc c' l' e
    cases e; exact hc
  · refine Reads.congr h fun x t v => ?_
    constructor
    rotate_left
    · rintro ⟨r, ⟨⟨hh, hm, hn, hs⟩, w1, w2, w3, w4, b1, b2, b3, n3, b4, rfl⟩, ht, rfl⟩
      have hs0 : BlankOff (r.what ++ (w4 ++ t)) := by
        rcases hs with h | h <;> rw [h] <;> exact off _ _ _ (by decide)
      have hn0 : ∀ z, BlankOff (r.nick ++ z) := by
        intro z
        cases hk : r.nick with
        | nil => exact absurd hk hn.1
        | cons c l => exact off _ _ _ (hn.2 c (by rw [hk]; simp))
      have h30 : Off (· ∉ Chars.unicodeBlanks) (w3 ++ (r.what ++ w4 ++ t)) := by
        cases w3 with
        | nil => exact absurd rfl n3
        | cons c l =>
          intro c' l' e
          cases e
          exact fun h => h (b3 c (by simp))
      exact ⟨(['['] ++ ((r.hour ++ ([':'] ++ r.minute)) ++ [']'])) ++ w1, ((['*', '*', '*'] ++ w2) ++ (r.nick ++ w3)) ++ (r.what ++ w4),
        _, _, by simp, rfl,
        ⟨_, _, rfl, ⟨_, _, _, rfl, rfl, ⟨_, _, _, _, _, rfl, rfl, ⟨hh, rfl⟩, rfl, ⟨hm, rfl⟩⟩, rfl⟩, b1, off _ _ _ (by decide)⟩,
        _, _, _, _, rfl, rfl,
        ⟨_, _, rfl, ⟨_, rfl, b2, by simpa using hn0 _⟩, _, _, rfl, ⟨⟨hn.1, hn.2, h30⟩, rfl⟩, b3, by simpa using hs0⟩,
        _, _, rfl, hs.imp (⟨·, rfl⟩) (⟨·, rfl⟩), b4, ht⟩
    · rintro ⟨_, _, _, _, rfl, rfl, ⟨_, w1, rfl, ⟨_, _, _, rfl, rfl, ⟨hh, _, mm, _, _, rfl, rfl, ⟨gh, rfl⟩, rfl, ⟨gm, rfl⟩⟩, rfl⟩, b1, _⟩,
        _, _, _, _, rfl, rfl, ⟨_, _, rfl, ⟨w2, rfl, b2, _⟩, nn, w3, rfl, ⟨⟨n1, n2, n3⟩, rfl⟩, b3, _⟩, ss, w4, rfl, hs, b4, ht⟩
      have hs' : (ss = ['l', 'e', 'f', 't'] ∨ ss = ['j', 'o', 'i', 'n', 'e', 'd']) := hs.imp (·.1) (·.1)
      have hv := hs.elim (·.2) (·.2)
      subst hv
      refine ⟨⟨hh, mm, nn, ss⟩, ⟨⟨gh, gm, ⟨n1, n2⟩, hs'⟩, w1, w2, w3, w4, b1, b2, b3, ?_, b4, by simp⟩, ht, rfl⟩
      rintro rfl
      rcases hs' with rfl | rfl
      · exact n3 'l' _ rfl (by decide)
      · exact n3 'j' _ rfl (by decide)

/-! ## All records -/

/-- White space behind a record belongs to it. -/
theorem written_more {x w : List Char} {r : Rec} (h : Written x r) (hw : Blank w) : Written (x ++ w) r := by
  obtain ⟨hg, w1, w2, w3, w4, b1, b2, b3, n3, b4, rfl⟩ := h
  refine ⟨hg, w1, w2, w3, w4 ++ w, b1, b2, b3, n3, ?_, by simp⟩
  intro c hc
  rcases List.mem_append.mp hc with h | h
  · exact b4 c h
  · exact hw c h

theorem written_start {x : List Char} {r : Rec} (h : Written x r) (t : List Char) : BlankOff (x ++ t) ∧ x ≠ [] := by
  obtain ⟨_, w1, w2, w3, w4, _, _, _, _, _, rfl⟩ := h
  refine ⟨?_, by simp⟩
  intro c l e
  simp only [List.cons_append, List.nil_append, List.append_assoc, List.cons.injEq] at e
  rw [← e.1]
  decide

theorem records_start {y t : List Char} {rs : List Rec} (h : Records y rs) (ht : BlankOff t) : BlankOff (y ++ t) := by
  cases h with
  | nil => exact ht
  | cons h _ => rw [List.append_assoc]; exact (written_start h _).1

/-- No record stands at the beginning. -/
def NoRecord (t : List Char) : Prop := ¬ ∃ x y r, t = x ++ y ∧ Written x r

theorem line_none {pre t : List Char} {d : List Char} (hd : d = pre ++ t) (h : NoRecord t) :
    ∃ e, Constructs G extractH none d line () (blen pre) (.err e () (blen pre)) := by
  subst hd
  rcases (reads_line (G := G)).both (pre := pre) (rest := t) rfl with ⟨a, t', v, e, ⟨r, hr, _⟩, _⟩ | ⟨e, o', he⟩
  · exact absurd ⟨a, t', r, e, hr⟩ h
  · have := ((C08_then_construct _ _ _ _).2.1 _ _ _).mp he
    obtain ⟨rfl, _⟩ := this
    exact ⟨e, he⟩

theorem none_line {pre t : List Char} {d : List Char} (hd : d = pre ++ t) {e : Error} {st : Unit} {o' : Nat}
    (h : Constructs G extractH none d line () (blen pre) (.err e st o')) : NoRecord t ∧ o' = blen pre := by
  subst hd
  refine ⟨?_, (((C08_then_construct _ _ _ _).2.1 _ _ _).mp h).1⟩
  rintro ⟨x, y, r, rfl, hr⟩
  have hw : Blank (y.takeWhile Unit.whitespace.isMatch) := fun c hc =>
    (C59_whitespace_control c).1.mp (List.all_eq_true.mp List.all_takeWhile c hc)
  have ho : BlankOff (y.dropWhile Unit.whitespace.isMatch) := by
    have := takeWhile_off Unit.whitespace y
    simp only [(C59_whitespace_control _).1] at this
    exact this
  have := ((reads_line (G := G)).ok pre (x ++ y) r.value _).mpr
    ⟨x ++ y.takeWhile Unit.whitespace.isMatch, y.dropWhile Unit.whitespace.isMatch,
      by rw [List.append_assoc, List.takeWhile_append_dropWhile], ⟨r, written_more hr hw, ho, rfl⟩, rfl⟩
  cases h.unique this

theorem built_records {d : List Char} {vs : List V} {st st' : Unit} {o o' : Nat}
    (h : Built G extractH none d line vs st o st' o') : ∀ pre rest, d = pre ++ rest → o = blen pre →
    ∃ y t rs, rest = y ++ t ∧ Records y rs ∧ vs = rs.map Rec.value ∧ o' = blen (pre ++ y) ∧ (rs ≠ [] → BlankOff t) := by
  induction h with
  | nil => intro pre rest hd ho; exact ⟨[], rest, [], rfl, .nil, rfl, by simpa using ho, fun h => absurd rfl h⟩
  | cons h _ ih =>
    intro pre rest hd ho
    subst hd ho
    obtain ⟨x, t1, rfl, ⟨r, hr, hoff, rfl⟩, rfl⟩ := ((reads_line (G := G)).ok _ _ _ _).mp h
    obtain ⟨y, t, rs, rfl, hy, rfl, rfl, ht⟩ := ih (pre ++ x) t1 (by simp) rfl
    refine ⟨x ++ y, t, r :: rs, by simp, .cons hr hy, rfl, by simp, fun _ => ?_⟩
    cases rs with
    | nil => cases hy; exact hoff
    | cons _ _ => exact ht (by simp)

theorem records_built {y : List Char} {rs : List Rec} (h : Records y rs) : ∀ (pre t d : List Char), d = pre ++ (y ++ t) →
    BlankOff t → Built G extractH none d line (rs.map Rec.value) () (blen pre) () (blen (pre ++ y)) := by
  induction h with
  | nil => intro pre t d _ _; rw [List.append_nil]; exact .nil _ _
  | @cons x y r rs hx hy ih =>
    intro pre t d hd ht
    have h1 := ((reads_line (G := G)).at (d := d) (pre := pre) (rest := x ++ (y ++ t)) (by rw [hd]; simp) r.value _).mpr
      ⟨x, y ++ t, rfl, ⟨r, hx, records_start hy ht, rfl⟩, rfl⟩
    have h2 := ih (pre ++ x) t d (by rw [hd]; simp) ht
    rw [List.append_assoc] at h2
    exact .cons h1 h2

theorem records_max : ∀ n (t : List Char), t.length ≤ n → BlankOff t → ∃ y z rs, t = y ++ z ∧ Records y rs ∧ BlankOff z ∧ NoRecord z := by
  intro n
  induction n with
  | zero =>
    intro t hn ht
    refine ⟨[], t, [], rfl, .nil, ht, ?_⟩
    rintro ⟨x, y, r, rfl, hr⟩
    have := List.length_pos_iff.mpr (written_start hr []).2
    simp at hn
    rw [hn.1] at this
    exact absurd this (by simp)
  | succ n ih =>
    intro t hn ht
    by_cases h : NoRecord t
    · exact ⟨[], t, [], rfl, .nil, ht, h⟩
    · obtain ⟨x, y, r, rfl, hr⟩ := Classical.not_not.mp h
      have hw : Blank (y.takeWhile Unit.whitespace.isMatch) := fun c hc =>
        (C59_whitespace_control c).1.mp (List.all_eq_true.mp List.all_takeWhile c hc)
      have ho : BlankOff (y.dropWhile Unit.whitespace.isMatch) := by
        have := takeWhile_off Unit.whitespace y
        simp only [(C59_whitespace_control _).1] at this
        exact this
      have hx := List.length_pos_iff.mpr (written_start hr []).2
      have hl := congrArg List.length (List.takeWhile_append_dropWhile (p := Unit.whitespace.isMatch) (l := y))
      obtain ⟨y', z, rs, e, hy, hz, hn'⟩ := ih (y.dropWhile Unit.whitespace.isMatch)
        (by simp only [List.length_append] at hn hl; omega) ho
      refine ⟨(x ++ y.takeWhile Unit.whitespace.isMatch) ++ y', z, r :: rs, ?_, .cons (written_more hr hw) hy, hz, hn'⟩
      rw [List.append_assoc, List.append_assoc, ← e, List.takeWhile_append_dropWhile]

/-! ## The property -/

/-- **C105.** `ctor` with the pattern of the documentation, from any position of any text, succeeds exactly where at least one
record stands; it yields all records that follow one another, in their order, and goes behind them and the white space
behind the last. -/
theorem _root_.Neure.C105_chat_log (G : Rules Char (List Char)) (pre rest : List Char) (v : V) (o' : Nat) :
    Constructs G extractH none (pre ++ rest) log () (blen pre) (.ok v () o') ↔
      ∃ y t rs, rest = y ++ t ∧ Records y rs ∧ rs ≠ [] ∧ (∀ c l, t = c :: l → c ∉ Chars.unicodeBlanks) ∧
        (¬ ∃ x z r, t = x ++ z ∧ Written x r) ∧ v = .list (rs.map Rec.value) ∧ o' = blen (pre ++ y) := by
  rw [show log = .rep line ⟨.incl 1, .unb⟩ from rfl, (C13_repeat_construct _ _ _ _).1]
  constructor
  · rintro ⟨vs, st1, o1, rfl, hb, hlo, _, ⟨h, _⟩ | ⟨_, e, h⟩⟩
    · exact absurd trivial h
    · obtain ⟨y, t, rs, rfl, hy, rfl, rfl, ht⟩ := built_records hb pre rest rfl rfl
      obtain ⟨hn, rfl⟩ := none_line (pre := pre ++ y) (t := t) (by simp) h
      have hne : rs ≠ [] := by
        rintro rfl
        simp [Bound.allowsFrom] at hlo
      exact ⟨y, t, rs, rfl, hy, hne, ht hne, hn, rfl, rfl⟩
  · rintro ⟨y, t, rs, rfl, hy, hne, ht, hn, rfl, rfl⟩
    obtain ⟨e, he⟩ := line_none (G := G) (pre := pre ++ y) (t := t) (d := pre ++ (y ++ t)) (by simp) hn
    refine ⟨_, (), _, rfl, records_built hy pre t _ rfl ht, ?_, trivial, .inr ⟨trivial, e, he⟩⟩
    have := List.length_pos_iff.mpr hne
    simp [Bound.allowsFrom]
    omega

/-- **C105 (otherwise).** Where no record stands it is `Error::Repeat` and the position stays; where one stands it
succeeds. So one of the two happens for every text. -/
theorem _root_.Neure.C105_chat_log_answers (G : Rules Char (List Char)) (pre rest : List Char) :
    ((∃ x z r, rest = x ++ z ∧ Written x r) →
      ∃ v o', Constructs G extractH none (pre ++ rest) log () (blen pre) (.ok v () o')) ∧
    ((¬ ∃ x z r, rest = x ++ z ∧ Written x r) →
      Constructs G extractH none (pre ++ rest) log () (blen pre) (.err .repeat_ () (blen pre))) := by
  constructor
  · rintro ⟨x, z, r, rfl, hr⟩
    obtain ⟨y, t, rs, e, hy, ht, hn⟩ := records_max _ (x ++ z) (Nat.le_refl _) (written_start hr z).1
    refine ⟨_, _, (C105_chat_log G pre (x ++ z) _ _).mpr ⟨y, t, rs, e, hy, ?_, ht, hn, rfl, rfl⟩⟩
    rintro rfl
    cases hy
    exact hn ⟨x, z, r, e.symm, hr⟩
  · intro h
    obtain ⟨e, he⟩ := line_none (G := G) (pre := pre) (t := rest) rfl h
    rw [show log = .rep line ⟨.incl 1, .unb⟩ from rfl]
    exact ((C13_repeat_construct _ _ _ _).2 _ _ _).mpr ⟨rfl, rfl, [], (), _, .nil _ _, .inl rfl,
      by simp [Bound.allowsFrom], .inr ⟨trivial, e, _, he⟩⟩

/-- **C105 (round trip).** The records of every printed log are read back. -/
theorem _root_.Neure.C105_round_trip (G : Rules Char (List Char)) (pre : List Char) (rs : List Rec) (hne : rs ≠ [])
    (hg : ∀ r ∈ rs, r.Good) :
    Constructs G extractH none (pre ++ rs.flatMap Rec.print) log () (blen pre)
      (.ok (.list (rs.map Rec.value)) () (blen (pre ++ rs.flatMap Rec.print))) := by
  refine (C105_chat_log G pre _ _ _).mpr ⟨rs.flatMap Rec.print, [], rs, by simp, ?_, hne, (fun c l h => nomatch h), ?_, rfl, rfl⟩
  · clear hne
    induction rs with
    | nil => exact .nil
    | cons r rs ih =>
      refine .cons ⟨hg r (by simp), [' '], [' '], [' '], ['\n'], ?_, ?_, ?_, by simp, ?_, by simp [Rec.print]⟩
        (ih fun r' h => hg r' (by simp [h])) <;> (intro c hc; simp at hc; subst hc; decide)
  · rintro ⟨x, z, r, e, hr⟩
    have := (written_start hr []).2
    simp at e
    exact this e.1

/-- The first two lines of the documentation. -/
example : Constructs G0 extractH none "[20:59] *** jpn left\n[21:00] *** jpn joined\n".toList log () 0
    (.ok (.list [.pair (.pair (.base "20".toList) (.base "59".toList)) (.pair (.base "jpn".toList) (.base "left".toList)),
      .pair (.pair (.base "21".toList) (.base "00".toList)) (.pair (.base "jpn".toList) (.base "joined".toList))]) () 44) :=
  C105_round_trip G0 [] [⟨['2', '0'], ['5', '9'], ['j', 'p', 'n'], ['l', 'e', 'f', 't']⟩,
    ⟨['2', '1'], ['0', '0'], ['j', 'p', 'n'], ['j', 'o', 'i', 'n', 'e', 'd']⟩] (by simp)
    (by intro r hr; simp at hr; rcases hr with rfl | rfl <;> exact ⟨by decide, by decide, by decide, by decide⟩)

end Neure.Chat
