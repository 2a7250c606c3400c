import Verif.PropsPeg
/-!
# C58: units with a condition
-/

namespace Neure

set_option linter.unusedSectionVars false
set_option linter.unusedSimpArgs false

open Demo

variable {ι β : Type} [Item ι] {G : Rules ι β} {R : Nat → Peg ι} {q : Pat ι β} {e : Peg ι}

/-- **C58 (an item under a condition).** `u.once().set_cond(regex_cond(q))` takes
one item: it succeeds exactly if there is an item, `u` accepts it, and `q`
matches at it (the item included); how far `q` reaches does not matter. -/
theorem C58_condition (hG : RulesAsPeg G R) (hq : AsPeg q e) (u : Neu ι) (pre x : List ι) (s : Span) (o' : Nat) :
    Runs G none (pre ++ x) (.once u (.regex q)) (blen pre) (.ok s o') ↔
      ∃ a y, x = a :: y ∧ u.isMatch a = true ∧ (∃ z, Ford R e (a :: y) (some z)) ∧
        s = ⟨blen pre, Item.size a⟩ ∧ o' = blen pre + Item.size a := by
  rw [(C58_peg hG (.onceIf u hq) pre x).1]
  constructor
  · rintro ⟨t, y, rfl, h, rfl, rfl⟩
    obtain ⟨a, hx, ha⟩ := guard_ok h
    have ht : t = [a] := by
      have := hx
      rw [← List.singleton_append] at this
      exact List.append_cancel_right this
    subst ht
    refine ⟨a, y, rfl, ha, ?_, by simp [blen], by simp [blen]⟩
    cases h with
    | seq_ok h1 h2 =>
      cases h1
      cases h2 with
      | seq_ok h3 _ =>
        cases h3 with
        | not_ok h3 => cases h3 with
          | not_fail h3 => exact ⟨_, h3⟩
  · rintro ⟨a, y, rfl, ha, ⟨z, hz⟩, rfl, rfl⟩
    exact ⟨[a], y, rfl, by simpa using guard_cond ha hz, by simp [blen], by simp [blen]⟩

/-- **C58 (why counted units ask more).** `between::<2, 2>` compares the length
first: on one item it fails, although the condition would run forever there and
the parsing expression has no result.  So the reading of `between`, `times` and
`then` needs a condition that always has a result. -/
theorem C58_length_first_counterexample :
    ∃ (G : Rules Char Nat) (R : Nat → Peg Char) (q : Pat Char Nat) (e : Peg Char) (u : Neu Char) (er : Error),
      RulesAsPeg G R ∧ AsPeg q e ∧ u.Fair ∧
      Runs G none ['a'] (.between 2 2 u (.regex q)) 0 (.err er 0) ∧
      ¬ ∃ r, Ford R (.rep (.guard u.isMatch e) 2 (some 2)) ['a'] r := by
  have hloop : ∀ n, pegEv (fun _ => .nt 0) n (.nt 0) ['a'] = none := by
    intro n
    induction n with
    | zero => rfl
    | succ n ih => exact ih
  refine ⟨fun _ => some (.cell 0), fun _ => .nt 0, .cell 0, .nt 0, .item 'a', .between,
    fun i => .inl ⟨_, rfl, .cell 0⟩, .cell 0, ?_, ⟨1, rfl⟩, ?_⟩
  · intro c; simp only [Neu.isMatch, decide_eq_true_eq]; rintro rfl; simp [Neu.minLength]
  · rintro ⟨r, h⟩
    have hno : ∀ r, ¬ Ford (fun _ => Peg.nt 0) (.nt 0) ['a'] r := fun r h => by
      obtain ⟨n, hn⟩ := ev_of_ford h
      rw [hloop n] at hn; cases hn
    have key : ∀ r, ¬ Ford (fun _ => Peg.nt 0) (.guard (Neu.isMatch (.item 'a')) (.nt 0)) ['a'] r := by
      intro r h
      cases h with
      | seq_fail h =>
        have := h.unique (.not_ok (.not_fail (.cls_ok (by simp [Neu.isMatch]))))
        cases this
      | seq_ok h h2 =>
        have := h.unique (.not_ok (.not_fail (.cls_ok (by simp [Neu.isMatch]))))
        cases this
        cases h2 with
        | seq_fail h => cases h with
          | not_fail h => cases h with
            | not_ok h => exact hno _ h
        | seq_ok h _ => cases h with
          | not_ok h => cases h with
            | not_fail h => exact hno _ h
    cases h with
    | seq_fail h => exact key _ h
    | seq_ok h _ => exact key _ h

/-! ### A quoted string with escaped quotes -/

namespace Quote

/-- `/repo/src/ctor.rs:564-566`: `[^ '"']+` under the condition "not at `\"`", or
`\"`, repeated; between quotes. -/
def string : Pat Char Nat :=
  .enclose (.lit ['"']) (.pat (.rep (.or (.many1 (.not (.equal '"')) (.regex (.assert (.lit ['\\', '"']) false)))
    (.lit ['\\', '"'])) (RangeExpr.rangeFrom 1).toCRange)) (.lit ['"'])

/-- Every quote in `b` comes directly after a backslash in `b`, and `b` does not
end with a backslash. -/
def Body (b : List Char) : Prop :=
  (∀ p r, b = p ++ '"' :: r → p.getLast? = some '\\') ∧ b.getLast? ≠ some '\\'

/-- One plain character. -/
def plain : Peg Char := .guard (Neu.isMatch (.not (.equal '"'))) (.not (.lit ['\\', '"']))
def piece : Peg Char := .alt (.plus plain) (.lit ['\\', '"'])

/-- What is left behind the body. -/
def eat : List Char → List Char
  | [] => []
  | '"' :: x => '"' :: x
  | '\\' :: '"' :: x => eat x
  | _ :: x => eat x

/-- What is left behind plain characters. -/
def eat1 : List Char → List Char
  | [] => []
  | '"' :: x => '"' :: x
  | '\\' :: '"' :: x => '\\' :: '"' :: x
  | _ :: x => eat1 x

/-- `x` starts with a plain character. -/
def Starts (c : Char) (x : List Char) : Prop := c ≠ '"' ∧ ¬ (c = '\\' ∧ ∃ y, x = '"' :: y)

theorem eat_cons {c : Char} {x : List Char} (h : Starts c x) : eat (c :: x) = eat x := by
  rw [eat.eq_def]
  split
  · contradiction
  · exact absurd (by rename_i heq; cases heq; rfl) h.1
  · exact absurd (by rename_i heq; cases heq; exact ⟨rfl, _, rfl⟩) h.2
  · rename_i heq; cases heq; rfl

theorem eat1_cons {c : Char} {x : List Char} (h : Starts c x) : eat1 (c :: x) = eat1 x := by
  rw [eat1.eq_def]
  split
  · contradiction
  · exact absurd (by rename_i heq; cases heq; rfl) h.1
  · exact absurd (by rename_i heq; cases heq; exact ⟨rfl, _, rfl⟩) h.2
  · rename_i heq; cases heq; rfl

variable {R : Nat → Peg Char}

theorem plain_ok {c : Char} {x : List Char} (h : Starts c x) : Ford R plain (c :: x) (some x) := by
  have : Ford R (.not (.lit ['\\', '"'])) (c :: x) (some (c :: x)) := by
    refine .not_ok (ford_lit_no _ _ ?_)
    rintro ⟨t, ht⟩
    injection ht with h1 h2
    exact h.2 ⟨h1, t, h2⟩
  have hc : Neu.isMatch (.not (.equal '"')) c = true := by simp [Neu.isMatch, Ne.symm h.1]
  exact guard_cond hc this

theorem plain_no {x : List Char} (h : ∀ c y, x = c :: y → ¬ Starts c y) : Ford R plain x none := by
  cases x with
  | nil => exact guard_nil
  | cons c y =>
    by_cases hc : c = '"'
    · subst hc; exact guard_no (by simp [Neu.isMatch])
    · have hs := h c y rfl
      have : c = '\\' ∧ ∃ z, y = '"' :: z := Classical.byContradiction fun hn => hs ⟨hc, hn⟩
      obtain ⟨rfl, z, rfl⟩ := this
      have h1 : Ford R (.not (.lit ['\\', '"'])) ('\\' :: '"' :: z) none :=
        .not_fail (ford_lit_ok ['\\', '"'] z)
      exact guard_cond (f := Neu.isMatch (.not (.equal '"'))) (by simp [Neu.isMatch]) h1

theorem cases_of (x : List Char) : x = [] ∨ (∃ y, x = '"' :: y) ∨ (∃ y, x = '\\' :: '"' :: y) ∨
    ∃ c y, x = c :: y ∧ Starts c y := by
  cases x with
  | nil => exact .inl rfl
  | cons c y =>
    by_cases hc : c = '"'
    · exact .inr (.inl ⟨y, by rw [hc]⟩)
    by_cases h2 : c = '\\' ∧ ∃ z, y = '"' :: z
    · obtain ⟨rfl, z, rfl⟩ := h2; exact .inr (.inr (.inl ⟨z, rfl⟩))
    · exact .inr (.inr (.inr ⟨c, y, rfl, hc, h2⟩))

theorem plains (x : List Char) : Ford R (.star plain) x (some (eat1 x)) := by
  induction x with
  | nil => exact .star_end guard_nil
  | cons c x ih =>
    by_cases h : Starts c x
    · rw [eat1_cons h]; exact .star_more (plain_ok h) ih
    · have hn : Ford R plain (c :: x) none := plain_no (by rintro _ _ ⟨⟩; exact h)
      have : eat1 (c :: x) = c :: x := by
        rcases cases_of (c :: x) with h' | ⟨y, h'⟩ | ⟨y, h'⟩ | ⟨_, _, h', hs⟩
        · cases h'
        · rw [h']; rfl
        · rw [h']; rfl
        · cases h'; exact absurd hs h
      rw [this]; exact .star_end hn

theorem eat1_le (x : List Char) : (eat1 x).length ≤ x.length := by
  induction x with
  | nil => simp [eat1]
  | cons c x ih =>
    rw [eat1.eq_def]
    split <;> simp_all <;> omega

theorem eat_eat1 (x : List Char) : eat (eat1 x) = eat x := by
  induction x with
  | nil => rfl
  | cons c x ih =>
    by_cases h : Starts c x
    · rw [eat1_cons h, eat_cons h, ih]
    · rcases cases_of (c :: x) with h' | ⟨y, h'⟩ | ⟨y, h'⟩ | ⟨_, _, h', hs⟩
      · cases h'
      · rw [h']; rfl
      · rw [h']; rfl
      · cases h'; exact absurd hs h

theorem piece_plain {c : Char} {x : List Char} (h : Starts c x) : Ford R piece (c :: x) (some (eat1 x)) :=
  .alt_1 (.seq_ok (plain_ok h) (plains x))

theorem piece_esc (x : List Char) : Ford R piece ('\\' :: '"' :: x) (some x) :=
  .alt_2 (.seq_fail (plain_no (by rintro _ _ ⟨⟩ h; exact h.2 ⟨rfl, _, rfl⟩))) (ford_lit_ok ['\\', '"'] x)

theorem piece_no {x : List Char} (h : x = [] ∨ ∃ y, x = '"' :: y) : Ford R piece x none := by
  refine .alt_2 (.seq_fail (plain_no ?_)) (ford_lit_no _ _ ?_)
  · rintro c y rfl hs
    rcases h with h | ⟨y, h⟩
    · cases h
    · cases h; exact hs.1 rfl
  · rintro ⟨t, rfl⟩
    rcases h with h | ⟨y, h⟩ <;> cases h

theorem pieces (x : List Char) : Ford R (.star piece) x (some (eat x)) := by
  generalize hn : x.length = n
  induction n using Nat.strongRecOn generalizing x with
  | _ n ih =>
    rcases cases_of x with rfl | ⟨y, rfl⟩ | ⟨y, rfl⟩ | ⟨c, y, rfl, hs⟩
    · exact .star_end (piece_no (.inl rfl))
    · exact .star_end (piece_no (.inr ⟨y, rfl⟩))
    · exact .star_more (piece_esc y) (ih y.length (by simp at hn; omega) y rfl)
    · refine .star_more (piece_plain hs) ?_
      rw [eat_cons hs, ← eat_eat1]
      have := eat1_le y
      exact ih (eat1 y).length (by simp at hn; omega) _ rfl

theorem body_ok {x y : List Char} : Ford R (.seq piece (.star piece)) x (some y) ↔
    y = eat x ∧ x ≠ [] ∧ ∀ z, x ≠ '"' :: z := by
  constructor
  · intro h
    cases h with
    | seq_ok h1 h2 =>
      refine ⟨?_, ?_, ?_⟩
      · have := (Ford.star_more h1 h2).unique (pieces x); cases this; rfl
      · rintro rfl; have := h1.unique (piece_no (.inl rfl)); cases this
      · rintro z rfl; have := h1.unique (piece_no (.inr ⟨z, rfl⟩)); cases this
  · rintro ⟨rfl, h1, h2⟩
    have h := pieces (R := R) x
    generalize eat x = z at h ⊢
    cases h with
    | star_end hn =>
      rcases cases_of x with rfl | ⟨y, rfl⟩ | ⟨y, rfl⟩ | ⟨c, y, rfl, hs⟩
      · exact absurd rfl h1
      · exact absurd rfl (h2 y)
      · have := hn.unique (piece_esc y); cases this
      · have := hn.unique (piece_plain hs); cases this
    | star_more h h' => exact .seq_ok h h'

theorem body_cons {c : Char} {b : List Char} (h : Body (c :: b)) : c ≠ '"' := by
  rintro rfl
  have := h.1 [] b rfl
  cases this

theorem body_esc {b : List Char} : Body ('\\' :: '"' :: b) ↔ Body b := by
  constructor
  · rintro ⟨h1, h2⟩
    refine ⟨fun p r hp => ?_, ?_⟩
    · have := h1 ('\\' :: '"' :: p) r (by rw [hp]; rfl)
      cases p with
      | nil => simp at this
      | cons a p => simpa using this
    · cases b with
      | nil => simp
      | cons a b => simpa using h2
  · rintro ⟨h1, h2⟩
    refine ⟨fun p r hp => ?_, ?_⟩
    · match p with
      | [] => cases hp
      | [a] => cases hp; rfl
      | a :: a' :: p =>
        simp only [List.cons_append, List.cons.injEq] at hp
        have := h1 p r hp.2.2
        cases p with
        | nil => cases this
        | cons x p => simpa using this
    · cases b with
      | nil => simp
      | cons a b => simpa using h2

theorem body_plain {c : Char} {b : List Char} (hc : c ≠ '"') (hb : c ≠ '\\' ∨ ∃ a b', b = a :: b' ∧ a ≠ '"') :
    Body (c :: b) ↔ Body b := by
  constructor
  · rintro ⟨h1, h2⟩
    refine ⟨fun p r hp => ?_, ?_⟩
    · have := h1 (c :: p) r (by rw [hp]; rfl)
      cases p with
      | nil =>
        rcases hb with hb | ⟨a, b', rfl, ha⟩
        · simp at this; exact absurd this hb
        · cases hp; exact absurd rfl ha
      | cons a p => simpa using this
    · cases b with
      | nil => simp
      | cons a b => simpa using h2
  · rintro ⟨h1, h2⟩
    refine ⟨fun p r hp => ?_, ?_⟩
    · match p with
      | [] => cases hp; exact absurd rfl hc
      | a :: p =>
        simp only [List.cons_append, List.cons.injEq] at hp
        have := h1 p r hp.2
        cases p with
        | nil => cases this
        | cons x p => simpa using this
    · cases b with
      | nil => rcases hb with hb | ⟨_, _, h, _⟩
               · simpa using hb
               · cases h
      | cons a b => simpa using h2

/-- The body ends before the first quote that is not escaped. -/
theorem eat_iff {x y : List Char} : eat x = '"' :: y ↔ ∃ b, x = b ++ '"' :: y ∧ Body b := by
  generalize hn : x.length = n
  induction n using Nat.strongRecOn generalizing x with
  | _ n ih =>
    have split : ∀ {b : List Char}, x = b ++ '"' :: y → Body b → b ≠ [] → ∃ c b', b = c :: b' ∧ c ≠ '"' := by
      intro b _ hb hne
      cases b with
      | nil => exact absurd rfl hne
      | cons c b' => exact ⟨c, b', rfl, body_cons hb⟩
    rcases cases_of x with rfl | ⟨z, rfl⟩ | ⟨z, rfl⟩ | ⟨c, z, rfl, hs⟩
    · simp [eat]
    · simp only [eat, List.cons.injEq, true_and]
      constructor
      · rintro rfl; exact ⟨[], rfl, by simp [Body]⟩
      · rintro ⟨b, hx, hb⟩
        cases b with
        | nil => cases hx; rfl
        | cons c b => cases hx; exact absurd rfl (body_cons hb)
    · have hi := ih z.length (by simp at hn; omega) (x := z) rfl
      simp only [eat]
      rw [hi]
      constructor
      · rintro ⟨b, rfl, hb⟩; exact ⟨'\\' :: '"' :: b, rfl, body_esc.mpr hb⟩
      · rintro ⟨b, hx, hb⟩
        match b with
        | [] => cases hx
        | [a] => cases hx; exact absurd rfl hb.2
        | a :: a' :: b =>
          simp only [List.cons_append, List.cons.injEq] at hx
          obtain ⟨rfl, rfl, rfl⟩ := hx
          exact ⟨b, rfl, body_esc.mp hb⟩
    · rw [eat_cons hs, ih z.length (by simp at hn; omega) (x := z) rfl]
      have hp : ∀ b, z = b ++ '"' :: y → (c ≠ '\\' ∨ ∃ a b', b = a :: b' ∧ a ≠ '"') := by
        intro b hb
        by_cases h : c = '\\'
        · right
          cases b with
          | nil => exact absurd ⟨h, y, hb⟩ hs.2
          | cons a b' => exact ⟨a, b', rfl, fun ha => hs.2 ⟨h, b' ++ '"' :: y, by rw [hb, ha]; rfl⟩⟩
        · exact .inl h
      constructor
      · rintro ⟨b, rfl, hb⟩
        exact ⟨c :: b, rfl, (body_plain hs.1 (hp b rfl)).mpr hb⟩
      · rintro ⟨b, hx, hb⟩
        cases b with
        | nil => cases hx; exact absurd rfl hs.1
        | cons a b =>
          simp only [List.cons_append, List.cons.injEq] at hx
          obtain ⟨rfl, rfl⟩ := hx
          exact ⟨b, rfl, (body_plain hs.1 (hp b rfl)).mp hb⟩

theorem string_as : AsPeg string (.seq (.lit ['"']) (.seq (.seq piece (.star piece)) (.lit ['"']))) :=
  .enclose (.lit _) (.pat (.rep (e := piece) _ 1 none (.or (.many1If _ (.isnt (.lit _))) (.lit _))
    ⟨by simp, fun k => by simp [RangeExpr.toCRange, Bound.allowsFrom, Bound.allowsUpTo]⟩)) (.lit _)

end Quote

open Quote in
/-- **C58 (quoted strings).** The string pattern of the documentation takes
exactly the texts `"b"` with `b` nonempty in which every inner quote directly
follows a backslash and the closing quote does not. -/
theorem C58_quoted (pre x : List Char) (s : Span) (o' : Nat) :
    Runs G0 none (pre ++ x) Quote.string (blen pre) (.ok s o') ↔
      ∃ b y, x = '"' :: (b ++ '"' :: y) ∧ b ≠ [] ∧ Quote.Body b ∧
        s = ⟨blen pre, blen b + 2⟩ ∧ o' = blen pre + (blen b + 2) := by
  have hG : RulesAsPeg (G0 : Rules Char Nat) (fun _ => .fail) := fun i => .inr ⟨rfl, rfl⟩
  have hq : ∀ b : List Char, blen ('"' :: (b ++ ['"'])) = blen b + 2 := by
    intro b
    have : Item.size '"' = 1 := by decide
    simp [blen_cons, blen_append, this]; omega
  rw [(C58_peg hG string_as pre x).1]
  have lit1 : ∀ {z w : List Char}, Ford (fun _ => Peg.fail) (.lit ['"']) z (some w) ↔ z = '"' :: w := by
    intro z w
    constructor
    · intro h
      by_cases hz : ∃ t, z = ['"'] ++ t
      · obtain ⟨t, rfl⟩ := hz
        have := h.unique (ford_lit_ok ['"'] t); cases this; rfl
      · have := h.unique (ford_lit_no ['"'] z hz); cases this
    · rintro rfl; exact ford_lit_ok ['"'] w
  constructor
  · rintro ⟨t, y, ht, h, rfl, rfl⟩
    cases h with
    | seq_ok h1 h2 =>
    cases h2 with
    | seq_ok h2 h3 =>
      rename_i z1 z2
      have e1 := lit1.mp h1
      have e3 := lit1.mp h3
      subst e3
      obtain ⟨e2, hne, hno⟩ := body_ok.mp h2
      obtain ⟨b, rfl, hb⟩ := eat_iff.mp e2.symm
      subst e1
      have htb : t = '"' :: (b ++ ['"']) := by
        have : ('"' :: (b ++ ['"'])) ++ y = t ++ y := by rw [← ht]; simp
        exact (List.append_cancel_right this).symm
      refine ⟨b, y, rfl, ?_, hb, by rw [htb, hq], by rw [htb, hq]⟩
      rintro rfl
      exact hno y rfl
  · rintro ⟨b, y, rfl, hne, hb, rfl, rfl⟩
    refine ⟨'"' :: (b ++ ['"']), y, by simp, ?_, by rw [hq], by rw [hq]⟩
    refine .seq_ok (lit1.mpr rfl) (.seq_ok (y := '"' :: y) (body_ok.mpr ⟨(eat_iff.mpr ⟨b, rfl, hb⟩).symm, by simp, ?_⟩)
      (lit1.mpr rfl))
    cases b with
    | nil => exact absurd rfl hne
    | cons c b => intro z hz; cases hz; exact body_cons hb rfl

/-- `"a\"b"` is one string. -/
example : Runs G0 none "\"a\\\"b\"!".toList Quote.string 0 (.ok ⟨0, 6⟩ 6) :=
  (C58_quoted [] _ _ _).mpr ⟨['a', '\\', '"', 'b'], ['!'], rfl, by simp,
    ⟨fun p r h => by
      match p with
      | [] => cases h
      | [_] => cases h
      | [_, _] => cases h; rfl
      | [_, _, _] => cases h
      | _ :: _ :: _ :: _ :: p => simp at h, by simp⟩, rfl, rfl⟩

/-- A backslash cannot be written in front of the closing quote: `"a\\"` is not a string. -/
example : ¬ ∃ s o', Runs G0 none "\"a\\\\\"".toList Quote.string 0 (.ok s o') := by
  rintro ⟨s, o', h⟩
  obtain ⟨b, y, hx, _, hb, _⟩ := (C58_quoted [] _ _ _).mp h
  match b with
  | [] => cases hx
  | [_] => cases hx
  | [_, _] => cases hx
  | [_, _, _] => cases hx; exact hb.2 rfl
  | _ :: _ :: _ :: _ :: b =>
    have := congrArg List.length hx
    simp at this

end Neure
