import Verif.PropsAttr
/-!
# Proof tools: words and keywords behind skipped characters

In a context that skips the characters of `B`, a pattern such as `unit.many1()` reads a
word of a class and a literal reads a keyword.  Both are computed here by
functions on the text to come, and connected with parsing expressions (C62, C63).
-/

namespace Neure.Lex

set_option linter.unusedSectionVars false

variable {ι β : Type} [Item ι] {R : Nat → Peg ι} {V : Nat → VPeg ι β} {g : List ι → List ι → β}

/-- All of `l` is in the class. -/
def Only (p : ι → Bool) (l : List ι) : Prop := ∀ c ∈ l, p c = true

/-- The text to come does not go on with the class. -/
def Past (p : ι → Bool) (y : List ι) : Prop := ∀ c z, y = c :: z → p c = false

/-- Skip, then the longest non-empty run of a class: the run and the rest. -/
def word (B p : ι → Bool) (x : List ι) : Option (List ι × List ι) :=
  if (x.dropWhile B).takeWhile p = [] then none
  else some ((x.dropWhile B).takeWhile p, (x.dropWhile B).dropWhile p)

/-- Skip, then the literal `k`: the rest. -/
def key (B : ι → Bool) (k x : List ι) : Option (List ι) :=
  if k.isPrefixOf (x.dropWhile B) then some ((x.dropWhile B).drop k.length) else none

theorem only_takeWhile (p : ι → Bool) (l : List ι) : Only p (l.takeWhile p) := by
  induction l with
  | nil => intro c hc; cases hc
  | cons a l ih =>
    rw [List.takeWhile_cons]
    split
    · rename_i h; intro c hc
      rcases List.mem_cons.mp hc with rfl | hc
      · exact h
      · exact ih c hc
    · intro c hc; cases hc

theorem ends_dropWhile (p : ι → Bool) (l : List ι) : Past p (l.dropWhile p) := by
  induction l with
  | nil => intro c z h; cases h
  | cons a l ih =>
    rw [List.dropWhile_cons]
    split
    · exact ih
    · rename_i h; intro c z hc; cases hc; simpa using h

theorem run_unique {p : ι → Bool} : ∀ {t y : List ι}, Only p t → Past p y →
    (t ++ y).takeWhile p = t ∧ (t ++ y).dropWhile p = y
  | [], y, _, he => by
    cases y with
    | nil => simp
    | cons c z => simp [he c z rfl]
  | a :: t, y, ho, he => by
    have ha := ho a (by simp)
    obtain ⟨h1, h2⟩ := run_unique (t := t) (fun c hc => ho c (by simp [hc])) he
    simp [ha, h1, h2]

theorem ends_append {p : ι → Bool} {t y : List ι} (hne : t ≠ []) (h : ∀ c ∈ t, p c = false) : Past p (t ++ y) := by
  cases t with
  | nil => exact absurd rfl hne
  | cons a t => intro c z he; cases he; exact h a (by simp)

/-- A skipped run in front of something that does not begin with a skipped
character. -/
theorem ends_behind {B p : ι → Bool} {w y : List ι} (hB : ∀ c, B c = true → p c = false) (hw : Only B w)
    (hy : Past p y) : Past p (w ++ y) := by
  cases w with
  | nil => exact hy
  | cons a w => intro c z he; cases he; exact hB _ (hw a (by simp))

theorem skip_eq {B : ι → Bool} {w y : List ι} (hw : Only B w) (hy : Past B y) : (w ++ y).dropWhile B = y :=
  (run_unique hw hy).2

theorem word_iff {B p : ι → Bool} (hBp : ∀ c, p c = true → B c = false) {x t y : List ι} :
    word B p x = some (t, y) ↔ ∃ w, Only B w ∧ x = w ++ t ++ y ∧ t ≠ [] ∧ Only p t ∧ Past p y := by
  unfold word
  constructor
  · split
    · intro h; cases h
    · rename_i hne
      intro h; cases h
      refine ⟨x.takeWhile B, only_takeWhile _ _, ?_, hne, only_takeWhile _ _, ends_dropWhile _ _⟩
      rw [List.append_assoc, List.takeWhile_append_dropWhile, List.takeWhile_append_dropWhile]
  · rintro ⟨w, hw, rfl, hne, ht, hy⟩
    have hb : Past B (t ++ y) := ends_append hne fun c hc => hBp c (ht c hc)
    rw [List.append_assoc, skip_eq hw hb, (run_unique ht hy).1, (run_unique ht hy).2, if_neg hne]

theorem word_none {B p : ι → Bool} {w : List ι} {c : ι} {z : List ι} (hw : Only B w) (hB : B c = false)
    (hp : p c = false) : word B p (w ++ c :: z) = none := by
  have : (w ++ c :: z).dropWhile B = c :: z := skip_eq hw (by intro a l h; cases h; exact hB)
  simp [word, this, hp]

theorem key_iff {B : ι → Bool} {a : ι} {k : List ι} (ha : B a = false) {x y : List ι} :
    key B (a :: k) x = some y ↔ ∃ w, Only B w ∧ x = w ++ (a :: k) ++ y := by
  unfold key
  constructor
  · split
    · rename_i hp
      intro h; cases h
      obtain ⟨r, hr⟩ := List.isPrefixOf_iff_prefix.mp hp
      refine ⟨x.takeWhile B, only_takeWhile _ _, ?_⟩
      conv => lhs; rw [← List.takeWhile_append_dropWhile (p := B) (l := x), ← hr]
      simp [← hr]
    · intro h; cases h
  · rintro ⟨w, hw, rfl⟩
    have : (w ++ (a :: k) ++ y).dropWhile B = (a :: k) ++ y := by
      rw [List.append_assoc]; exact skip_eq hw (by intro c z h; cases h; exact ha)
    rw [this, if_pos (List.isPrefixOf_iff_prefix.mpr (List.prefix_append _ _))]
    simp

/-- Two keywords with different first characters do not both fit. -/
theorem key_other {B : ι → Bool} {a b : ι} {k l : List ι} (ha : B a = false) {x y : List ι} (hab : b ≠ a)
    (h : key B (a :: k) x = some y) : key B (b :: l) x = none := by
  obtain ⟨w, hw, rfl⟩ := (key_iff ha).mp h
  have : (w ++ (a :: k) ++ y).dropWhile B = (a :: k) ++ y := by
    rw [List.append_assoc]; exact skip_eq hw (by intro c z h; cases h; exact ha)
  unfold key
  rw [this]
  simp [List.isPrefixOf, hab]

/-- Where a word of `p` begins, no keyword that begins outside of `p` does. -/
theorem key_word {B p : ι → Bool} (hBp : ∀ c, p c = true → B c = false) {b : ι} {l x t y : List ι} (hb : p b = false)
    (h : word B p x = some (t, y)) : key B (b :: l) x = none := by
  obtain ⟨w, hw, rfl, hne, ht, _⟩ := (word_iff hBp).mp h
  cases t with
  | nil => exact absurd rfl hne
  | cons c t =>
    have hc := ht c (by simp)
    have : (w ++ (c :: t) ++ y).dropWhile B = (c :: t) ++ y := by
      rw [List.append_assoc]; exact skip_eq hw (by intro a z h; cases h; exact hBp _ hc)
    unfold key
    rw [this]
    have : b ≠ c := by rintro rfl; rw [hb] at hc; cases hc
    simp [List.isPrefixOf, this]

/-- Where a keyword begins, no word of a class without its first character does. -/
theorem word_key {B p : ι → Bool} {a : ι} {k x y : List ι} (ha : B a = false) (hp : p a = false)
    (h : key B (a :: k) x = some y) : word B p x = none := by
  obtain ⟨w, hw, rfl⟩ := (key_iff ha).mp h
  rw [List.append_assoc, List.cons_append]
  exact word_none hw ha hp

/-- The first character decides between two classes. -/
theorem word_word {B p q : ι → Bool} (hBp : ∀ c, p c = true → B c = false) (hpq : ∀ c, p c = true → q c = false)
    {x t y : List ι} (h : word B p x = some (t, y)) : word B q x = none := by
  obtain ⟨w, hw, rfl, hne, ht, _⟩ := (word_iff hBp).mp h
  cases t with
  | nil => exact absurd rfl hne
  | cons c t =>
    have hc := ht c (by simp)
    rw [List.append_assoc, List.cons_append]
    exact word_none hw (hBp c hc) (hpq c hc)

theorem ford_plus_cls (p : ι → Bool) (x : List ι) :
    Ford R (.plus (.cls p)) x (if x.takeWhile p = [] then none else some (x.dropWhile p)) := by
  cases x with
  | nil => exact .seq_fail .cls_end
  | cons a x =>
    by_cases h : p a = true
    · rw [List.takeWhile_cons, if_pos h, List.dropWhile_cons, if_pos h, if_neg (by simp)]
      exact .seq_ok (.cls_ok h) (ford_star_cls p x)
    · rw [List.takeWhile_cons, if_neg h, if_pos rfl]
      exact .seq_fail (.cls_no (by simpa using h))

theorem yields_word (B p : ι → Bool) (x : List ι) :
    Yields R V g (.text (.star (.cls B)) (.plus (.cls p))) x ((word B p x).map fun q => (.base (g q.1 q.2), q.2)) := by
  have h1 := ford_star_cls (R := R) B x
  have h2 := ford_plus_cls (R := R) p (x.dropWhile B)
  unfold word
  split
  · rename_i h; rw [if_pos h] at h2; exact .text_no (.seq_ok h1 h2)
  · rename_i h; rw [if_neg h] at h2
    have e : (x.dropWhile B).takeWhile p ++ (x.dropWhile B).dropWhile p = x.dropWhile B :=
      List.takeWhile_append_dropWhile
    exact .text_ok (by rw [e]; exact h1) (by rw [e]; exact h2)

theorem ford_key (B : ι → Bool) (k x : List ι) : Ford R (.seq (.star (.cls B)) (.lit k)) x (key B k x) := by
  refine .seq_ok (ford_star_cls B x) ?_
  unfold key
  split
  · rename_i h
    obtain ⟨r, hr⟩ := List.isPrefixOf_iff_prefix.mp h
    rw [← hr]; simpa using ford_lit_ok k r
  · rename_i h
    refine ford_lit_no _ _ ?_
    rintro ⟨t, ht⟩
    exact h (List.isPrefixOf_iff_prefix.mpr ⟨t, ht.symm⟩)

end Neure.Lex
