import Verif.Macro
import Verif.PropsClass
/-!
# C61: the `neu!` and `regex!` macros
-/

namespace Neure

set_option linter.unusedSectionVars false
set_option linter.unusedSimpArgs false

open Demo

/-! ## Specification: what can be written and what it means -/

namespace Macro

/-- What stands between the brackets. -/
inductive Items where
  | chars (l : List Char)
  | ranges (l : List (Char × Char))

/-- A character class as it is written; `q` says whether characters are quoted. -/
inductive Cls where
  /-- `^` -/
  | nonBlank
  /-- `.` -/
  | wild
  /-- `a` or `'a'` -/
  | one (q : Bool) (c : Char)
  /-- `[a b c]`, `[^ a b c]`, `[a - z A - Z]`, `[^ 'a' - 'z']`, … -/
  | set (neg q : Bool) (items : Items)
  /-- `(u1, …, un)` -/
  | any (es : List (Neu Char))

/-- A character, quoted or not. -/
def chr (q : Bool) (c : Char) : Tok := if q then .lit c else .ident c

def Items.text (q : Bool) : Items → List Tok
  | .chars l => l.map (chr q)
  | .ranges l => l.flatMap fun p => [chr q p.1, .punct '-', chr q p.2]

/-- How a class is written. -/
def Cls.text : Cls → List Tok
  | .nonBlank => [.punct '^']
  | .wild => [.punct '.']
  | .one q c => [chr q c]
  | .set neg q items => [.bracket ((if neg then [.punct '^'] else []) ++ items.text q)]
  | .any es => [.paren es]

def Items.Has (c : Char) : Items → Prop
  | .chars l => c ∈ l
  | .ranges l => ∃ p ∈ l, p.1.toNat ≤ c.toNat ∧ c.toNat ≤ p.2.toNat

/-- The characters of a class. -/
def Cls.Has (c : Char) : Cls → Prop
  | .nonBlank => c ∉ Chars.unicodeBlanks
  | .wild => c ≠ '\n'
  | .one _ x => c = x
  | .set neg _ items => if neg then ¬ items.Has c else items.Has c
  | .any es => ∃ u ∈ es, u.isMatch c = true

/-- Brackets and parentheses are not empty.  A single unquoted range does not end
in U+D7FF or U+10FFFF (no identifier contains these). -/
def Cls.Ok : Cls → Prop
  | .set _ q (.ranges [(_, r)]) => q = false → (r.toNat + 1).isValidChar
  | .set _ _ (.ranges l) => l ≠ []
  | .set _ _ (.chars l) => l ≠ []
  | .any es => es ≠ []
  | _ => True

/-- Quantifiers. -/
inductive Quant where
  | one | star | question | plus
  | exactly (n : Nat) | atLeast (n : Nat) | between (n m : Nat)

def Quant.text : Quant → List Tok
  | .one => []
  | .star => [.punct '*']
  | .question => [.punct '?']
  | .plus => [.punct '+']
  | .exactly n => [.brace [.num n]]
  | .atLeast n => [.brace [.num n, .punct ',']]
  | .between n m => [.brace [.num n, .punct ',', .num m]]

/-- The least number of characters. -/
def Quant.least : Quant → Nat
  | .one => 1 | .star => 0 | .question => 0 | .plus => 1
  | .exactly n => n | .atLeast n => n | .between n _ => n

/-- The greatest number of characters, if there is one. -/
def Quant.most : Quant → Option Nat
  | .one => some 1 | .star => none | .question => some 1 | .plus => none
  | .exactly n => some n | .atLeast _ => none | .between _ m => some m

/-- The error of a pattern that finds too few characters. -/
def Quant.error : Quant → Error
  | .one => .once | .plus => .many1 | _ => .between

/-- `run` is the longest prefix of `text` made of characters of the class and no
longer than `most`. -/
def Longest (P : Char → Prop) (most : Option Nat) (text run : List Char) : Prop :=
  ∃ tl, text = run ++ tl ∧ (∀ c ∈ run, P c) ∧ (∀ m, most = some m → run.length ≤ m) ∧
    (most = some run.length ∨ ∀ c l, tl = c :: l → ¬ P c)

end Macro

/-! ## Proofs -/

namespace Macro

theorem orAll_isMatch (us : List (Neu Char)) (c : Char) :
    (orAll us).isMatch c = true ↔ ∃ u ∈ us, u.isMatch c = true := by
  have : ∀ (us : List (Neu Char)) (v : Neu Char), (us.foldl .or v).isMatch c = true ↔
      v.isMatch c = true ∨ ∃ u ∈ us, u.isMatch c = true := by
    intro us
    induction us with
    | nil => intro v; simp
    | cons u us ih =>
      intro v
      rw [List.foldl_cons, ih]
      simp [Neu.isMatch, or_assoc]
  rw [orAll, this]
  simp [Neu.isMatch]

theorem orAll_minLength (us : List (Neu Char)) : (orAll us).minLength ≤ 1 := by
  have : ∀ (us : List (Neu Char)) (v : Neu Char), v.minLength ≤ 1 → (us.foldl .or v).minLength ≤ 1 := by
    intro us
    induction us with
    | nil => intro v h; exact h
    | cons u us ih =>
      intro v h
      rw [List.foldl_cons]
      refine ih _ ?_
      simp only [Neu.minLength]; omega
  exact this us _ (Nat.le_refl _)

theorem orAll_equal (l : List Char) (c : Char) : (orAll (l.map .equal)).isMatch c = true ↔ c ∈ l := by
  rw [orAll_isMatch]
  constructor
  · rintro ⟨u, hu, h⟩
    obtain ⟨a, ha, rfl⟩ := List.mem_map.mp hu
    simp [Neu.isMatch] at h; subst h; exact ha
  · intro h; exact ⟨_, List.mem_map.mpr ⟨c, h, rfl⟩, by simp [Neu.isMatch]⟩

theorem closed_isMatch (p : Char × Char) (c : Char) :
    (closed p).isMatch c = true ↔ p.1.toNat ≤ c.toNat ∧ c.toNat ≤ p.2.toNat := by
  have key : Item.key c = c.toNat := rfl
  simp [closed, Neu.isMatch, RangeExpr.toCRange, CRange.contains, key]

theorem lits_iff (ts : List Tok) (l : List Char) :
    lits ts = some l ↔ l ≠ [] ∧ ts = l.map (chr true) := by
  induction ts generalizing l with
  | nil => cases l <;> simp [lits]
  | cons t ts ih =>
    cases t <;> (try (cases l <;> simp [lits, chr] <;> done))
    rename_i c
    cases ts with
    | nil => cases l with
      | nil => simp [lits]
      | cons c' l => cases l <;> simp [lits, chr] <;> exact eq_comm
    | cons t ts =>
      simp only [lits, Option.map_eq_some_iff, ih]
      cases l with
      | nil => simp
      | cons c' l =>
        cases l with
        | nil => simp [chr]
        | cons c'' l => simp [chr]; grind

theorem idents_iff (ts : List Tok) (l : List Char) :
    idents ts = some l ↔ l ≠ [] ∧ ts = l.map (chr false) := by
  induction ts generalizing l with
  | nil => cases l <;> simp [idents]
  | cons t ts ih =>
    cases t <;> (try (cases l <;> simp [idents, chr] <;> done))
    rename_i c
    cases ts with
    | nil => cases l with
      | nil => simp [idents]
      | cons c' l => cases l <;> simp [idents, chr] <;> exact eq_comm
    | cons t ts =>
      simp only [idents, Option.map_eq_some_iff, ih]
      cases l with
      | nil => simp
      | cons c' l =>
        cases l with
        | nil => simp [chr]
        | cons c'' l => simp [chr]; grind

theorem litRanges_text (l : List (Char × Char)) (h : l ≠ []) :
    litRanges (Items.text true (.ranges l)) = some l := by
  induction l with
  | nil => exact absurd rfl h
  | cons p l ih =>
    cases l with
    | nil => rfl
    | cons p' l =>
      have := ih (by simp)
      simp only [Items.text, List.flatMap_cons, List.cons_append, List.nil_append] at this ⊢
      simp only [chr, if_true] at this ⊢
      simp [litRanges, this]

theorem identRanges_text (l : List (Char × Char)) (h : l ≠ []) :
    identRanges (Items.text false (.ranges l)) = some l := by
  induction l with
  | nil => exact absurd rfl h
  | cons p l ih =>
    cases l with
    | nil => rfl
    | cons p' l =>
      have := ih (by simp)
      simp only [Items.text, List.flatMap_cons, List.cons_append, List.nil_append] at this ⊢
      simp only [chr, Bool.false_eq_true, if_false] at this ⊢
      simp [identRanges, this]

theorem litRanges_some (ts : List Tok) (l : List (Char × Char)) (h : litRanges ts = some l) :
    l ≠ [] ∧ ts = Items.text true (.ranges l) := by
  fun_induction litRanges ts generalizing l with
  | case1 a b => simp at h; subst h; simp [Items.text, chr]
  | case2 a b ts _ ih =>
    simp only [Option.map_eq_some_iff] at h
    obtain ⟨l', hl', rfl⟩ := h
    obtain ⟨h1, h2⟩ := ih _ hl'
    subst h2
    simp [Items.text, chr]
  | case3 => simp at h

theorem identRanges_some (ts : List Tok) (l : List (Char × Char)) (h : identRanges ts = some l) :
    l ≠ [] ∧ ts = Items.text false (.ranges l) := by
  fun_induction identRanges ts generalizing l with
  | case1 a b => simp at h; subst h; simp [Items.text, chr]
  | case2 a b ts _ ih =>
    simp only [Option.map_eq_some_iff] at h
    obtain ⟨l', hl', rfl⟩ := h
    obtain ⟨h1, h2⟩ := ih _ hl'
    subst h2
    simp [Items.text, chr]
  | case3 => simp at h

/-- The rules without `^`. -/
def plainRules : List (List Tok → Option (Option (Neu Char))) :=
  [oneLitRange, oneIdentRange,
   fun ts => (litRanges ts).map fun l => some (orAll (l.map closed)),
   fun ts => (identRanges ts).map fun l => some (orAll (l.map closed)),
   fun ts => (lits ts).map fun l => some (orAll (l.map .equal)),
   fun ts => (idents ts).map fun l => some (orAll (l.map .equal))]

theorem bracket_neg (ts : List Tok) :
    bracket (.punct '^' :: ts) = ((plainRules.findSome? fun rule => rule ts).join).map .not := by
  have h : ∀ (o : Option (Option (Neu Char))), (o.map (·.map Neu.not)).join = o.join.map .not := by
    rintro (_ | _ | _) <;> rfl
  rw [← h]
  simp only [bracket, bracketRules, plainRules, List.findSome?_cons, List.findSome?_nil, neg, oneLitRange,
    oneIdentRange, litRanges, identRanges, lits, idents]
  congr 1
  repeat' split
  all_goals simp_all

theorem bracket_plain (t : Tok) (ts : List Tok) (h : t ≠ .punct '^') :
    bracket (t :: ts) = (plainRules.findSome? fun rule => rule (t :: ts)).join := by
  have hn : ∀ rule, neg rule (t :: ts) = none := by
    intro rule
    unfold neg
    split
    · next h' => injection h' with h' _; exact absurd h' h
    · rfl
  simp only [bracket, bracketRules, plainRules, List.findSome?_cons, List.findSome?_nil, hn]

/-- The unit for what stands in brackets. -/
theorem plain_text (q : Bool) (items : Items) (ok : (Cls.set false q items).Ok) :
    ∃ u, (plainRules.findSome? fun rule => rule (items.text q)) = some (some u) ∧ u.minLength ≤ 1 ∧
      ∀ c, u.isMatch c = true ↔ items.Has c := by
  cases items with
  | chars l =>
    have hl : l ≠ [] := ok
    have hx : ∀ rule ∈ plainRules.take 4, rule ((Items.chars l).text q) = none := by
      intro rule hr
      rcases l with _ | ⟨a, _ | ⟨b, l⟩⟩
      · exact absurd rfl hl
      all_goals
        simp only [plainRules, List.take, List.mem_cons, List.not_mem_nil, or_false] at hr
        rcases hr with rfl | rfl | rfl | rfl <;> cases q <;>
          simp [Items.text, chr, oneLitRange, oneIdentRange, litRanges, identRanges]
    refine ⟨orAll (l.map .equal), ?_, orAll_minLength _, orAll_equal l⟩
    simp only [plainRules, List.take, List.forall_mem_cons] at hx
    simp only [plainRules, List.findSome?_cons, List.findSome?_nil, hx]
    cases q with
    | true => rw [show (Items.chars l).text true = l.map (chr true) from rfl, (lits_iff _ l).mpr ⟨hl, rfl⟩]; rfl
    | false =>
      rw [show (Items.chars l).text false = l.map (chr false) from rfl, (idents_iff _ l).mpr ⟨hl, rfl⟩]
      rcases l with _ | ⟨a, _ | ⟨b, l⟩⟩
      · exact absurd rfl hl
      all_goals simp [chr, lits]
  | ranges l =>
    rcases l with _ | ⟨⟨a, b⟩, _ | ⟨p, l⟩⟩
    · exact absurd rfl ok
    · cases q with
      | true =>
        refine ⟨closed (a, b), rfl, Nat.le_refl _, fun c => ?_⟩
        rw [closed_isMatch]; simp [Items.Has]
      | false =>
        have hv := ok rfl
        have key : ∀ c : Char, Item.key c = c.toNat := fun _ => rfl
        refine ⟨.range (RangeExpr.range a.toNat (b.toNat + 1)).toCRange, ?_, Nat.le_refl _, fun c => ?_⟩
        · simp [plainRules, List.findSome?_cons, Items.text, chr, oneLitRange, oneIdentRange, halfOpen, hv]
        · simp [Items.Has, Neu.isMatch, RangeExpr.toCRange, CRange.contains, key, Nat.lt_succ_iff]
    · have hne : (a, b) :: p :: l ≠ [] := by simp
      refine ⟨orAll (((a, b) :: p :: l).map closed), ?_, orAll_minLength _, fun c => ?_⟩
      · cases q with
        | true =>
          have := litRanges_text _ hne
          simp only [plainRules, List.findSome?_cons, List.findSome?_nil, this]
          simp [Items.text, chr, oneLitRange, oneIdentRange]
        | false =>
          have := identRanges_text _ hne
          simp only [plainRules, List.findSome?_cons, List.findSome?_nil, this]
          simp [Items.text, chr, oneLitRange, oneIdentRange, litRanges]
      · rw [orAll_isMatch]
        constructor
        · rintro ⟨u, hu, h⟩
          obtain ⟨p', hp, rfl⟩ := List.mem_map.mp hu
          exact ⟨p', hp, (closed_isMatch p' c).mp h⟩
        · rintro ⟨p', hp, h⟩
          exact ⟨_, List.mem_map.mpr ⟨p', hp, rfl⟩, (closed_isMatch p' c).mpr h⟩

theorem text_head (q : Bool) (items : Items) (ts : List Tok) (t : Tok) (h : items.text q = t :: ts) :
    t ≠ .punct '^' := by
  rintro rfl
  rcases items with (_ | ⟨a, l⟩) | (_ | ⟨a, l⟩) <;> cases q <;> simp [Items.text, chr] at h

theorem items_ne_nil (q : Bool) (items : Items) (ok : (Cls.set false q items).Ok) :
    ∃ t ts, items.text q = t :: ts := by
  rcases items with (_ | ⟨a, l⟩) | (_ | ⟨a, l⟩)
  · exact absurd rfl ok
  · exact ⟨_, _, rfl⟩
  · exact absurd rfl ok
  · exact ⟨_, _, rfl⟩

theorem ok_neg (neg q : Bool) (items : Items) (ok : (Cls.set neg q items).Ok) : (Cls.set false q items).Ok := by
  rcases items with l | (_ | ⟨a, _ | ⟨b, l⟩⟩) <;> exact ok

/-- Everything the rules without `^` accept is the text of some items. -/
theorem plain_some (ts : List Tok) (u : Neu Char)
    (h : (plainRules.findSome? fun rule => rule ts) = some (some u)) :
    ∃ q items, (Cls.set false q items).Ok ∧ items.text q = ts := by
  obtain ⟨rule, hr, hu⟩ := List.exists_of_findSome?_eq_some h
  have hsingle : ∀ a b, ts = [.ident a, .punct '-', .ident b] → (b.toNat + 1).isValidChar := by
    rintro a b rfl
    simp only [plainRules, List.findSome?_cons, oneLitRange, oneIdentRange, halfOpen] at h
    split at h
    · assumption
    · simp at h
  simp only [plainRules, List.mem_cons, List.not_mem_nil, or_false] at hr
  rcases hr with rfl | rfl | rfl | rfl | rfl | rfl
  · unfold oneLitRange at hu
    split at hu
    · next l r => exact ⟨true, .ranges [(l, r)], fun h => by simp at h, rfl⟩
    · simp at hu
  · unfold oneIdentRange at hu
    split at hu
    · next l r => exact ⟨false, .ranges [(l, r)], fun _ => hsingle l r rfl, rfl⟩
    · simp at hu
  · simp only [Option.map_eq_some_iff] at hu
    obtain ⟨l, hl, _⟩ := hu
    obtain ⟨h1, rfl⟩ := litRanges_some _ _ hl
    rcases l with _ | ⟨⟨a, b⟩, _ | ⟨p, l⟩⟩
    · exact absurd rfl h1
    · exact ⟨true, .ranges [(a, b)], fun h => by simp at h, rfl⟩
    · exact ⟨true, .ranges ((a, b) :: p :: l), h1, rfl⟩
  · simp only [Option.map_eq_some_iff] at hu
    obtain ⟨l, hl, _⟩ := hu
    obtain ⟨h1, rfl⟩ := identRanges_some _ _ hl
    rcases l with _ | ⟨⟨a, b⟩, _ | ⟨p, l⟩⟩
    · exact absurd rfl h1
    · exact ⟨false, .ranges [(a, b)], fun _ => hsingle a b rfl, rfl⟩
    · exact ⟨false, .ranges ((a, b) :: p :: l), h1, rfl⟩
  · simp only [Option.map_eq_some_iff] at hu
    obtain ⟨l, hl, _⟩ := hu
    obtain ⟨h1, rfl⟩ := (lits_iff _ _).mp hl
    exact ⟨true, .chars l, h1, rfl⟩
  · simp only [Option.map_eq_some_iff] at hu
    obtain ⟨l, hl, _⟩ := hu
    obtain ⟨h1, rfl⟩ := (idents_iff _ _).mp hl
    exact ⟨false, .chars l, h1, rfl⟩

theorem bracket_text (neg q : Bool) (items : Items) (ok : (Cls.set neg q items).Ok) :
    ∃ u, bracket ((if neg then [.punct '^'] else []) ++ items.text q) = some u ∧ u.minLength ≤ 1 ∧
      ∀ c, u.isMatch c = true ↔ (Cls.set neg q items).Has c := by
  obtain ⟨u, h1, h2, h3⟩ := plain_text q items (ok_neg _ _ _ ok)
  cases neg with
  | true =>
    refine ⟨.not u, ?_, h2, fun c => ?_⟩
    · show bracket (.punct '^' :: items.text q) = _
      rw [bracket_neg, h1]; rfl
    · simp [Neu.isMatch, Cls.Has, ← h3]
  | false =>
    refine ⟨u, ?_, h2, fun c => by simp [Cls.Has, ← h3]⟩
    obtain ⟨t, ts, ht⟩ := items_ne_nil q items ok
    show bracket (items.text q) = _
    rw [ht, bracket_plain _ _ (text_head q items ts t ht), ← ht, h1]; rfl

theorem bracket_some (ts : List Tok) (u : Neu Char) (h : bracket ts = some u) :
    ∃ neg q items, (Cls.set neg q items).Ok ∧ (if neg then [.punct '^'] else []) ++ items.text q = ts := by
  cases ts with
  | nil => exact absurd h (by simp [bracket, bracketRules, List.findSome?_cons, neg, oneLitRange, oneIdentRange,
      litRanges, identRanges, lits, idents])
  | cons t ts =>
    by_cases ht : t = .punct '^'
    · subst ht
      rw [bracket_neg, Option.map_eq_some_iff] at h
      obtain ⟨v, hv, _⟩ := h
      rw [Option.join_eq_some_iff] at hv
      obtain ⟨q, items, ok, htx⟩ := plain_some ts v hv
      exact ⟨true, q, items, by rcases items with l | (_ | ⟨a, _ | ⟨b, l⟩⟩) <;> exact ok, by rw [htx]; rfl⟩
    · rw [bracket_plain t ts ht, Option.join_eq_some_iff] at h
      obtain ⟨q, items, ok, htx⟩ := plain_some _ u h
      exact ⟨false, q, items, ok, by rw [htx]; rfl⟩

theorem neu_text (C : Cls) (ok : C.Ok) :
    ∃ u, neu C.text = some u ∧ u.minLength ≤ 1 ∧ ∀ c, u.isMatch c = true ↔ C.Has c := by
  cases C with
  | nonBlank =>
    exact ⟨_, rfl, Nat.le_refl _, fun c => by
      simp only [Neu.isMatch, Bool.not_eq_true', ← Bool.not_eq_true, (C59_whitespace_control c).1, Cls.Has]⟩
  | wild => exact ⟨_, rfl, Nat.le_refl _, C59_wild⟩
  | one q c => cases q <;> exact ⟨_, rfl, Nat.le_refl _, fun x => by simp [Neu.isMatch, Cls.Has, eq_comm]⟩
  | set neg q items => exact bracket_text neg q items ok
  | any es =>
    cases es with
    | nil => exact absurd rfl ok
    | cons e es => exact ⟨_, rfl, orAll_minLength _, orAll_isMatch _⟩

theorem fair_of_minLength {u : Neu Char} (h : u.minLength ≤ 1) : u.Fair := by
  intro x _
  have := Item.size_pos x
  omega

end Macro

open Macro

/-- **C61 (classes).** Whatever can be written between the parentheses of `neu!(…)`
expands to a unit that accepts exactly the characters of that class. -/
theorem C61_neu_macro (C : Cls) (ok : C.Ok) :
    ∃ u, neu C.text = some u ∧ ∀ c, u.isMatch c = true ↔ C.Has c := by
  obtain ⟨u, h1, _, h3⟩ := neu_text C ok
  exact ⟨u, h1, h3⟩

example : (Cls.set true false (.ranges [('a', 'g')])).Ok ∧ (Cls.set false true (.chars ['x', '+'])).Ok := by
  exact ⟨fun _ => by decide, by simp [Cls.Ok]⟩

/-- **C61.** Nothing else expands. -/
theorem C61_neu_macro_only (ts : List Tok) (u : Neu Char) (h : neu ts = some u) :
    ∃ C : Cls, C.Ok ∧ C.text = ts := by
  unfold neu at h
  split at h
  · exact ⟨.nonBlank, trivial, rfl⟩
  · exact ⟨.wild, trivial, rfl⟩
  · obtain ⟨neg, q, items, ok, htx⟩ := bracket_some _ u h
    exact ⟨.set neg q items, ok, by rw [Cls.text, htx]⟩
  · next e es => exact ⟨.any (e :: es), by simp [Cls.Ok], rfl⟩
  · next c => exact ⟨.one false c, trivial, rfl⟩
  · next c => exact ⟨.one true c, trivial, rfl⟩
  · simp at h

/-- `neu!()`, which the macro has a rule for, is not among them: the rule names a
function that does not exist. -/
theorem C61_neu_empty_counterexample : neu [] = none := rfl

/-- The texts of classes without an atom and of a class. -/
def Macro.atomText : Option Cls → List Tok
  | none => []
  | some C => C.text

/-- The characters meant; without an atom, white space. -/
def Macro.AtomHas : Option Cls → Char → Prop
  | none, c => c ∈ Chars.unicodeBlanks
  | some C, c => C.Has c

namespace Macro

variable {β : Type} {G : Rules Char β} {pol : Option (Pat Char β)}

theorem quantified_cases (u : Neu Char) (q : Quant) : ∃ p : Pat Char β, quantified u q.text = some p := by
  cases q <;> exact ⟨_, rfl⟩

theorem regex_text (A : Option Cls) (ok : ∀ C, A = some C → C.Ok) (q : Quant) :
    ∃ u, u.minLength ≤ 1 ∧ (∀ c, u.isMatch c = true ↔ AtomHas A c) ∧
      (regex (atomText A ++ q.text) : Option (Pat Char β)) = quantified u q.text := by
  cases A with
  | none =>
    refine ⟨Unit.whitespace, Nat.le_refl _, fun c => (C59_whitespace_control c).1, ?_⟩
    cases q <;> rfl
  | some C =>
    obtain ⟨u, h1, h2, h3⟩ := neu_text C (ok C rfl)
    refine ⟨u, h2, h3, ?_⟩
    cases C with
    | nonBlank => injection h1 with h1; subst h1; rfl
    | wild => injection h1 with h1; subst h1; rfl
    | one b c => cases b <;> (injection h1 with h1; subst h1; rfl)
    | set neg b items =>
      have hok := ok_neg _ _ _ (ok _ rfl)
      obtain ⟨t, ts, ht⟩ := items_ne_nil b items hok
      obtain ⟨t', ts', ht'⟩ : ∃ t' ts', (if neg then [.punct '^'] else []) ++ items.text b = t' :: ts' := by
        rw [ht]; cases neg <;> exact ⟨_, _, rfl⟩
      simp only [Cls.text, ht'] at h1
      simp only [atomText, Cls.text, ht', List.cons_append, List.nil_append, regex, h1, Option.bind_some]
    | any es =>
      cases es with
      | nil => exact absurd rfl (ok _ rfl)
      | cons e es => injection h1 with h1; subst h1; rfl

theorem parses_of {d : List Char} {p : Pat Char β} {o : Nat} {v : Res Span} (h : Parses G pol d p o v) (r : Res Span) :
    Parses G pol d p o r ↔ r = v := by
  constructor
  · intro h'
    rw [parses_iff] at h h'
    exact Option.some.inj (h'.symm.trans h)
  · rintro rfl; exact h

theorem longest_unique {P : Char → Prop} {most : Option Nat} {text r1 r2 : List Char}
    (h1 : Longest P most text r1) (h2 : Longest P most text r2) : r1 = r2 := by
  have aux : ∀ {r1 r2 : List Char}, Longest P most text r1 → Longest P most text r2 →
      r1.length < r2.length → False := by
    rintro r1 r2 ⟨t1, e1, p1, b1, m1⟩ ⟨t2, e2, p2, b2, m2⟩ hlt
    rcases m1 with m1 | m1
    · have := b2 _ m1; omega
    · cases t1 with
      | nil =>
        have := congrArg List.length (e1.symm.trans e2)
        simp at this; omega
      | cons c l =>
        refine m1 c l rfl (p2 c ?_)
        have hc : text[r1.length]? = some c := by rw [e1]; simp
        have hc2 : text[r1.length]? = r2[r1.length]? := by
          rw [e2, List.getElem?_append_left hlt]
        exact List.mem_of_getElem? (hc2.symm.trans hc)
  have hl : r1.length = r2.length := by
    rcases Nat.lt_trichotomy r1.length r2.length with h | h | h
    · exact (aux h1 h2 h).elim
    · exact h
    · exact (aux h2 h1 h).elim
  obtain ⟨t1, e1, _⟩ := h1
  obtain ⟨t2, e2, _⟩ := h2
  exact (List.append_inj (e1.symm.trans e2) hl).1

theorem longest_takeWhile {P : Char → Prop} {f : Char → Bool} (hf : ∀ c, f c = true ↔ P c) (text : List Char) :
    Longest P none text (text.takeWhile f) := by
  refine ⟨text.dropWhile f, by simp, fun c hc => (hf c).mp ((List.all_eq_true.mp List.all_takeWhile) c hc),
    by simp, .inr fun c l h hp => ?_⟩
  have := List.head?_dropWhile_not f text
  rw [h] at this
  simp [(hf c).mpr hp] at this

theorem longest_take {P : Char → Prop} {f : Char → Bool} (hf : ∀ c, f c = true ↔ P c) (n : Nat) (text : List Char) :
    Longest P (some n) text ((text.takeWhile f).take n) := by
  obtain ⟨tl, h1, h2, _, h4⟩ := longest_takeWhile hf text
  refine ⟨(text.takeWhile f).drop n ++ tl, ?_, fun c hc => h2 c (List.mem_of_mem_take hc), ?_, ?_⟩
  · rw [← List.append_assoc, List.take_append_drop]; exact h1
  · intro m hm; injection hm with hm; subst hm; simp; omega
  · by_cases hn : n ≤ (text.takeWhile f).length
    · left; simp [Nat.min_eq_left hn]
    · right
      rw [List.drop_eq_nil_of_le (by omega)]
      rcases h4 with h4 | h4
      · simp at h4
      · exact h4

end Macro

/-- **C61 (patterns).** `regex!(A Q)`, where `A` is a class (white space if it is
left out) and `Q` one of the quantifiers, takes the longest run of characters of the
class the quantifier allows; it matches that run if it is long enough and fails
without moving otherwise. -/
theorem C61_regex_macro {β : Type} (A : Option Cls) (ok : ∀ C, A = some C → C.Ok) (q : Quant) :
    ∃ p : Pat Char β, regex (atomText A ++ q.text) = some p ∧
      ∀ (G : Rules Char β) (pol : Option (Pat Char β)) (pre post : List Char), post.length ≤ usizeMax →
      ∃ run, Longest (AtomHas A) q.most post run ∧
        ∀ r, Parses G pol (pre ++ post) p (blen pre) r ↔
          r = if q.least ≤ run.length then .ok ⟨blen pre, blen run⟩ (blen pre + blen run)
            else .err q.error (blen pre) := by
  obtain ⟨u, hu, hm, ht⟩ := regex_text (β := β) A ok q
  obtain ⟨p, hp⟩ := quantified_cases (β := β) u q
  have hfair := fair_of_minLength hu
  refine ⟨p, ht.trans hp, fun G pol pre post hlen => ?_⟩
  have hW := longest_takeWhile hm post
  have hT := fun n => longest_take hm n post
  cases q with
  | star =>
    injection hp with hp; subst hp
    exact ⟨_, hW, fun r => C23_many0_takeWhile u pre post rfl r⟩
  | plus =>
    injection hp with hp; subst hp
    refine ⟨_, hW, fun r => ?_⟩
    rw [C23_many1_takeWhile u pre post rfl]
    by_cases hn : post.takeWhile u.isMatch = []
    · simp [hn, Quant.least, Quant.error]
    · have := List.length_pos_iff.mpr hn
      rw [if_neg hn, if_pos (by exact this)]
  | exactly n =>
    injection hp with hp; subst hp
    exact ⟨_, hT n, fun r => C24_between_takeWhile n n u hfair pre post rfl r⟩
  | atLeast n =>
    injection hp with hp; subst hp
    refine ⟨_, hW, fun r => ?_⟩
    have hl : (post.takeWhile u.isMatch).length ≤ usizeMax :=
      Nat.le_trans (List.takeWhile_sublist _).length_le hlen
    rw [C24_between_takeWhile n usizeMax u hfair pre post rfl, List.take_of_length_le hl]
    exact Iff.rfl
  | between n m =>
    injection hp with hp; subst hp
    exact ⟨_, hT m, fun r => C24_between_takeWhile n m u hfair pre post rfl r⟩
  | one =>
    injection hp with hp; subst hp
    refine ⟨_, hT 1, parses_of ?_⟩
    have h := C23_once (G := G) (pol := pol) u .empty pre post rfl
    cases post with
    | nil => exact (h.2 _ _).mpr ⟨rfl, .inl ⟨rfl, rfl⟩⟩
    | cons x tl =>
      cases hx : u.isMatch x with
      | true =>
        have := (h.1 _ _).mpr ⟨x, tl, rfl, .inl ⟨hx, rfl⟩, rfl, rfl⟩
        simpa [List.takeWhile_cons, hx, Quant.least, blen] using this
      | false =>
        have := (h.2 _ _).mpr ⟨rfl, .inr ⟨x, tl, rfl, .inl ⟨.inr ⟨hx, rfl⟩, rfl⟩⟩⟩
        simpa [List.takeWhile_cons, hx, Quant.least, Quant.error] using this
  | question =>
    injection hp with hp; subst hp
    refine ⟨_, hT 1, parses_of ?_⟩
    have h := C23_opt_unit (G := G) (pol := pol) u .empty pre post rfl
    cases post with
    | nil => exact (h.1 _ _).mpr (.inr ⟨fun _ _ h => by simp at h, rfl, rfl⟩)
    | cons x tl =>
      cases hx : u.isMatch x with
      | true =>
        have := (h.1 _ _).mpr (.inl ⟨x, tl, rfl, .inl ⟨hx, rfl⟩, rfl, rfl⟩)
        simpa [List.takeWhile_cons, hx, Quant.least, blen] using this
      | false =>
        have := (h.1 _ _).mpr (.inr ⟨fun y l e => by injection e with e _; subst e; exact .inr ⟨hx, rfl⟩, rfl, rfl⟩)
        simpa [List.takeWhile_cons, hx, Quant.least] using this

/-- `regex!([^ a - g]{2,3})` takes at most three characters and fails with fewer
than two. -/
example : ∃ p : Pat Char Nat, regex [.bracket [.punct '^', .ident 'a', .punct '-', .ident 'g'],
      .brace [.num 2, .punct ',', .num 3]] = some p ∧
    Parses G0 none "_hijkl".toList p 1 (.ok ⟨1, 3⟩ 4) ∧
    Parses G0 none "_hello".toList p 1 (.err .between 1) :=
  ⟨_, rfl, ⟨3, by decide +kernel⟩, ⟨3, by decide +kernel⟩⟩

/-- The longest run is unique, so C61 says exactly what is matched. -/
theorem C61_longest_unique (P : Char → Prop) (most : Option Nat) (text r1 r2 : List Char)
    (h1 : Longest P most text r1) (h2 : Longest P most text r2) : r1 = r2 := longest_unique h1 h2

end Neure
