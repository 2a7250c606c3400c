import Verif.MeansLemmas
/-!
# C83: the value of a text is the value of its derivation

A grammar with values, read as a translation scheme: whatever is constructed is the value
of a derivation of the text consumed; and where one item of lookahead decides, every text
that has a value is constructed, with this value.
-/

namespace Neure

set_option linter.unusedSectionVars false
set_option linter.unusedSimpArgs false

open Demo

variable {ι β σ : Type} [Item ι] {G : Rules ι β} {H : Handler ι β σ} {R : Nat → Peg ι} {V : Nat → VPeg ι β}
  {g : List ι → List ι → β} {p : Pat ι β} {E : VPeg ι β} {Q : VPeg ι β → Prop} {P : Peg ι → Option ι → Prop}
  {F : VPeg ι β → Option ι → Prop}

/-- **C83 (nothing else is constructed).** If lists end clean, what is constructed is the value
of a derivation of the text that was consumed. -/
theorem C83_sound (hG : RulesAsPeg G R) (hV : RulesAsVal .plain G V) (hp : AsVal .plain G p E)
    (hQ : Steady R V g Q) (hE : Q E) (pre x : List ι) (hH : Handles H (pre ++ x) g) {st st' : σ} {v : Val β} {o' : Nat}
    (h : Constructs G H none (pre ++ x) p st (blen pre) (.ok v st' o')) :
    ∃ w y, x = w ++ y ∧ Means R V g E w y v ∧ st' = st ∧ o' = blen pre + blen w := by
  obtain ⟨t, y, rfl, hy, h1, h2⟩ := ((C63_values hG hV pre x hH hp st).1 v st' o').mp h
  obtain ⟨w, hw, hm⟩ := Means.sound hQ hE hy
  cases List.append_cancel_right hw
  exact ⟨t, y, rfl, hm, h1, h2⟩

/-- **C83 (everything is constructed).** Where one item of lookahead decides, a text that has a
value is constructed, with this value, in front of everything that may follow it. -/
theorem C83_complete (hG : RulesAsPeg G R) (hV : RulesAsVal .plain G V) (hp : AsVal .plain G p E)
    (hQ : Steady R V g Q) (hE : Q E) (hP : Predictive R P) (hF : Foreseen R V g P F) (pre w y : List ι)
    (hH : Handles H (pre ++ (w ++ y)) g) (st : σ) {v : Val β} (hw : Means R V g E w y v) (hy : F E y.head?) :
    Constructs G H none (pre ++ (w ++ y)) p st (blen pre) (.ok v st (blen pre + blen w)) :=
  ((C63_values hG hV pre (w ++ y) hH hp st).1 v st _).mpr ⟨w, y, rfl, Means.complete hQ hP hF hw hE hy, rfl, rfl⟩

/-- **C83 (whole texts).** Where one item of lookahead decides, a whole text is constructed with
the value `v` exactly if it has a derivation with the value `v`. -/
theorem C83_whole (hG : RulesAsPeg G R) (hV : RulesAsVal .plain G V) (hp : AsVal .plain G p E)
    (hQ : Steady R V g Q) (hE : Q E) (hP : Predictive R P) (hF : Foreseen R V g P F) (he : F E none) (x : List ι)
    (hH : Handles H x g) (st : σ) (v : Val β) :
    Constructs G H none x p st 0 (.ok v st (blen x)) ↔ Means R V g E x [] v := by
  constructor
  · intro h
    obtain ⟨w, y, rfl, hm, -, ho⟩ := C83_sound hG hV hp hQ hE [] x hH h
    have : y = [] := blen_full (t := w) (by simpa using ho)
    subst this
    rwa [List.append_nil]
  · intro h
    have := C83_complete hG hV hp hQ hE hP hF [] x [] (by simpa using hH) st h he
    simpa using this

/-- **C83 (no ambiguity).** Where one item of lookahead decides, a text has at most one value; and
of two beginnings of the input that both have one and are both followed by what may follow, both
are the same. -/
theorem C83_unambiguous (hQ : Steady R V g Q) (hE : Q E) (hP : Predictive R P) (hF : Foreseen R V g P F)
    {w y w' y' : List ι} {v v' : Val β} (h : Means R V g E w y v) (h' : Means R V g E w' y' v')
    (he : F E y.head?) (he' : F E y'.head?) (hx : w ++ y = w' ++ y') : w = w' ∧ v = v' := by
  have h1 := Means.complete hQ hP hF h hE he
  have h2 := Means.complete hQ hP hF h' hE he'
  rw [hx] at h1
  have := C63_yields_unique h1 h2
  simp only [Option.some.injEq, Prod.mk.injEq] at this
  obtain ⟨rfl, rfl⟩ := this
  exact ⟨List.append_cancel_right hx, rfl⟩

/-- **C83 (only the meaning matters).** Two grammars, in both of which one item of lookahead
decides, and which give the same values to the same texts, construct the same. -/
theorem C83_same_meaning {G' : Rules ι β} {R' : Nat → Peg ι} {V' : Nat → VPeg ι β} {p' : Pat ι β} {E' : VPeg ι β}
    {Q' : VPeg ι β → Prop} {P' : Peg ι → Option ι → Prop} {F' : VPeg ι β → Option ι → Prop}
    (hG : RulesAsPeg G R) (hV : RulesAsVal .plain G V) (hp : AsVal .plain G p E)
    (hQ : Steady R V g Q) (hE : Q E) (hP : Predictive R P) (hF : Foreseen R V g P F) (he : F E none)
    (hG' : RulesAsPeg G' R') (hV' : RulesAsVal .plain G' V') (hp' : AsVal .plain G' p' E')
    (hQ' : Steady R' V' g Q') (hE' : Q' E') (hP' : Predictive R' P') (hF' : Foreseen R' V' g P' F') (he' : F' E' none)
    (x : List ι) (hH : Handles H x g) (h : ∀ v, Means R V g E x [] v ↔ Means R' V' g E' x [] v) (st : σ) (v : Val β) :
    Constructs G H none x p st 0 (.ok v st (blen x)) ↔ Constructs G' H none x p' st 0 (.ok v st (blen x)) :=
  (C83_whole hG hV hp hQ hE hP hF he x hH st v).trans
    ((h v).trans (C83_whole hG' hV' hp' hQ' hE' hP' hF' he' x hH st v).symm)

section
variable {N : Nat → Bool} {T : Nat → ι → Bool} {O : Nat → Option ι → Prop} {M : Nat → Prop} {S : Nat → ι → Prop}
  {U : Nat → Option ι → Prop} {rank rank' : Nat → Nat}

/-- **C83 (tables).** The conditions can be read off tables of what may be empty, what things
begin with and what may follow: if these have no conflict, whole texts are constructed exactly
with the values of their derivations. -/
theorem C83_tables (hG : RulesAsPeg G R) (hV : RulesAsVal .plain G V) (hp : AsVal .plain G p E)
    (h : VTables R V g N T O M S U rank rank') (hE : E.tidy R V g N M) (he : E.clear R N T O M S U (· = none))
    (x : List ι) (hH : Handles H x g) (st : σ) (v : Val β) :
    Constructs G H none x p st 0 (.ok v st (blen x)) ↔ Means R V g E x [] v :=
  C83_whole hG hV hp (Means.steady_of h) hE (C79_tables h.texts) (Means.foreseen_of h) ⟨_, he, hE, rfl⟩ x hH st v

/-- **C83 (tables, flat).** The same when no recursive handle occurs in delimiters and texts: then
the rules for these do not matter. -/
theorem C83_tables_flat {R' : Nat → Peg ι} (hG : RulesAsPeg G R') (hV : RulesAsVal .plain G V)
    (hp : AsVal .plain G p E) (hf : ∀ i, (V i).flat) (hfE : E.flat) (h : VTables R V g N T O M S U rank rank')
    (hE : E.tidy R V g N M) (he : E.clear R N T O M S U (· = none)) (x : List ι) (hH : Handles H x g) (st : σ) (v : Val β) :
    Constructs G H none x p st 0 (.ok v st (blen x)) ↔ Means R V g E x [] v := by
  have hc := (C63_values hG hV [] x hH hp st).1 v st (blen x)
  simp only [List.nil_append, blen_nil, Nat.zero_add] at hc
  rw [hc]
  constructor
  · rintro ⟨t, y, rfl, hy, -, ho⟩
    have : y = [] := blen_full ho
    subst this
    obtain ⟨w, hw, hm⟩ := Means.sound (Means.steady_of h) hE (Means.yields_flat hf hy hfE)
    simp only [List.append_nil] at hw hm ⊢
    rwa [hw]
  · intro hm
    have := Means.complete (Means.steady_of h) (C79_tables h.texts) (Means.foreseen_of h) hm hE ⟨(· = none), he, hE, rfl⟩
    exact ⟨x, [], by simp, Means.yields_flat hf (by simpa using this) hfE, trivial, rfl⟩

end

/-! ## When do lists end clean? -/

theorem ford_opt_eps {x : List ι} : Ford R (.opt .eps) x (some x) := .alt_1 .eps

/-- **C83 (clean ends).** Lists of combinators and of leaves end clean. -/
theorem C83_clean_eps (a : VPeg ι β) : EndsClean R V g a .eps ∧ EndsClean R V g a (.opt .eps) :=
  ⟨fun _ _ _ h => by cases h; rfl, fun _ _ _ h => by
    have := h.unique ford_opt_eps
    injection this⟩

/-- **C83 (clean ends, mappers).** Lists of mapped leaves end clean if the mapper accepts all texts
of the leaf. -/
theorem C83_clean_map {e : Peg ι} {f : Val β → Option (Val β)}
    (hf : ∀ t y, Derives R e t → f (.base (g t y)) ≠ none) :
    EndsClean R V g (.map f (.text .eps e)) (.alt (.seq .eps e) (.opt .eps)) := by
  intro x z ha hT
  have he : Ford R (.seq .eps e) x none := by
    generalize hr : (none : Option (Val β × List ι)) = r at ha
    cases ha with
    | map_ok => cases hr
    | map_fail h =>
      generalize hr : (none : Option (Val β × List ι)) = r at h
      cases h with
      | text_ok => cases hr
      | text_no h => exact h
    | @map_no _ _ _ v y h hn =>
      generalize hr : some (v, y) = r at h
      cases h with
      | text_no => cases hr
      | text_ok _ h2 =>
        cases hr
        obtain ⟨w, hw, hd⟩ := ford_derives h2
        cases List.append_cancel_right hw
        exact absurd hn (hf _ _ hd)
  have := hT.unique (.alt_2 he ford_opt_eps)
  injection this

/-! ## Cases -/

namespace Nested

/-- `item = digits | "[" item, … "]"`, with a recursive handle. -/
def rules : Rules Char (List Char) := fun i =>
  if i = 0 then some (.or (.many1 (.pred Char.isDigit) .empty)
    (.enclose (.lit ['[']) (.sep (.cell 0) (.lit [',']) true 0) (.lit [']']))) else none

def digits : Peg Char := .plus (.cls Char.isDigit)

def items : VPeg Char (List Char) := .list (.nt 0) (.lit [',']) true 0 .eps (.opt .eps)

def inner : VPeg Char (List Char) := .before items (.lit [']'])

def brackets : VPeg Char (List Char) := .after (.lit ['[']) inner

def values : Nat → VPeg Char (List Char) := fun i =>
  if i = 0 then .alt (.text .eps digits) brackets else .fail

def pegs : Nat → Peg Char := fun i =>
  if i = 0 then .alt digits (.seq (.lit ['[']) (.seq (.list (.nt 0) (.lit [',']) 0) (.lit [']']))) else .fail

def none_ : Nat → Peg Char := fun _ => .fail

theorem rules_pegs : RulesAsPeg rules pegs := by
  intro i
  by_cases h : i = 0
  · subst h
    exact .inl ⟨_, rfl, .or (.many1 _) (.enclose (.lit _) (.sep 0 (.cell 0) (.lit _)) (.lit _))⟩
  · exact .inr ⟨by simp [rules, h], by simp [pegs, h]⟩

theorem rules_values : RulesAsVal .plain rules values := by
  intro i
  by_cases h : i = 0
  · subst h
    exact .inl ⟨_, rfl, .or (.leaf trivial (by simp) (.many1 _))
      (.enclose (.lit _) (.sep true 0 (.cell 0) (.cell rfl (.guarded trivial)) (.lit _)) (.lit _))⟩
  · exact .inr ⟨by simp [rules, h], by simp [values, h]⟩

theorem flat (i : Nat) : (values i).flat := by
  by_cases h : i = 0
  · subst h
    simp [values, VPeg.flat, brackets, inner, items, digits, Peg.NoNt, Peg.plus, Peg.lit, Peg.opt]
  · simp [values, h, VPeg.flat]

/-- What an item begins with and what may follow it. -/
def S : Nat → Char → Prop := fun _ c => c.isDigit = true ∨ c = '['
def U : Nat → Option Char → Prop := fun _ h => h = none ∨ h = some ',' ∨ h = some ']'

theorem tables : VTables none_ values (fun t _ => t) (fun _ => true) (fun _ _ => false) (fun _ _ => False)
    (fun _ => False) S U (fun _ => 0) (fun _ => 0) where
  texts := ⟨fun _ _ => rfl, (fun _ _ h => by cases h), fun _ => trivial, fun _ => trivial, fun _ => .inl rfl⟩
  vacant i h := by
    by_cases h0 : i = 0
    · subst h0
      simp [values, VPeg.vacant, brackets, digits, Peg.nullable, Peg.plus, Peg.lit] at h
    · simp [values, h0, VPeg.vacant] at h
  begins i x h := by
    by_cases h0 : i = 0
    · subst h0
      simpa [values, VPeg.begins, brackets, digits, Peg.nullable, Peg.first, Peg.plus, Peg.lit, S] using h
    · simp [values, h0, VPeg.begins] at h
  tidy i := by
    by_cases h0 : i = 0
    · subst h0
      refine ⟨⟨trivial, trivial, rfl, trivial⟩, ⟨trivial, trivial⟩, ⟨trivial, id, ⟨(C83_clean_eps _).1, fun x => ⟨x, .eps⟩⟩,
        ⟨trivial, trivial⟩, ?_, fun x => ⟨x, ford_opt_eps⟩⟩, trivial, trivial⟩
      intro x z _ h
      have := h.unique ford_opt_eps
      injection this
    · simp [values, h0, VPeg.tidy]
  ranked i := by
    by_cases h0 : i = 0
    · subst h0
      exact ⟨trivial, fun h => by cases h⟩
    · simp [values, h0, VPeg.leftIn]
  follow i := by
    by_cases h0 : i = 0
    · subst h0
      simp only [values, if_true, VPeg.clear, brackets, inner, items, digits, Peg.noConflict, Peg.plus, Peg.lit,
        Peg.nullable, Peg.first, VPeg.next, VPeg.begins, VPeg.vacant, U, S, Option.some.injEq]
      refine ⟨⟨⟨⟨trivial, ?_, trivial⟩, trivial⟩, trivial⟩, ⟨⟨⟨trivial, trivial⟩, rfl, ?_, ?_, ⟨trivial, trivial⟩, ?_⟩,
        trivial, trivial⟩, by simp, ?_⟩
      · rintro x hx (h | rfl | rfl)
        · cases h
        · cases hx
        · cases hx
      · rintro x (hx | rfl) (⟨x, rfl, h⟩ | h)
        · simp only [Bool.false_and, Bool.or_false, decide_eq_true_eq] at h
          subst h; cases hx
        · simp at h
        · simp at h
        · simp at h
      · rintro x hx (⟨x, rfl, h⟩ | h)
        · simp only [Bool.false_and, Bool.or_false, decide_eq_true_eq] at h hx
          subst h; cases hx
        · simp at h
      · rintro h (⟨x, rfl, h⟩ | ⟨x, rfl, h⟩ | h)
        · exact .inr (.inl (by simpa using h))
        · exact .inr (.inr (by simpa using h))
        · simp at h
      · intro x hx
        refine ⟨fun h => ?_, by simp⟩
        simp at h hx
        subst h; cases hx
    · simp [values, h0, VPeg.clear]

mutual
/-- Nested lists of numbers, and their values. -/
inductive Entry : List Char → Val (List Char) → Prop where
  | num {ds} : ds ≠ [] → (∀ c ∈ ds, c.isDigit = true) → Entry ds (.base ds)
  | list {ts l} : Entries ts l → Entry ('[' :: (ts ++ [']'])) l
/-- Items with commas between them; one more comma may come last. -/
inductive Entries : List Char → Val (List Char) → Prop where
  | none : Entries [] .nil
  | last {t v} : Entry t v → Entries t (.cons v .nil)
  | more {t v ts l} : Entry t v → Entries ts l → Entries (t ++ ',' :: ts) (.cons v l)
end

theorem derives_lit {R : Nat → Peg Char} {c : Char} {w : List Char} : Derives R (.lit [c]) w ↔ w = [c] := by
  constructor
  · intro h
    cases h with
    | seq h1 h2 =>
      cases h2
      cases h1 with
      | cls h => simp only [decide_eq_true_eq] at h; subst h; rfl
  · rintro rfl
    exact .seq (w := [c]) (.cls (by simp)) .eps

theorem derives_digits {R : Nat → Peg Char} {w : List Char} :
    Derives R digits w ↔ w ≠ [] ∧ ∀ c ∈ w, c.isDigit = true := by
  have star : ∀ {w}, Derives R (.star (.cls Char.isDigit)) w → ∀ c ∈ w, c.isDigit = true := by
    intro w h
    generalize he : Peg.star (.cls Char.isDigit) = e at h
    induction h with
    | stop => simp
    | more h1 _ _ ih =>
      cases he
      cases h1 with
      | cls h => exact fun c hc => (List.mem_cons.mp hc).elim (fun h' => h' ▸ h) (ih rfl c)
    | _ => cases he
  constructor
  · intro h
    cases h with
    | seq h1 h2 =>
      cases h1 with
      | cls h => exact ⟨by simp, fun c hc => (List.mem_cons.mp hc).elim (fun h' => h' ▸ h) (star h2 c)⟩
  · rintro ⟨hn, hw⟩
    have star' : ∀ w : List Char, (∀ c ∈ w, c.isDigit = true) → Derives R (.star (.cls Char.isDigit)) w := by
      intro w
      induction w with
      | nil => exact fun _ => .stop
      | cons c w ih => exact fun h => .more (w := [c]) (.cls (h c (by simp))) (ih fun c hc => h c (by simp [hc]))
    cases w with
    | nil => exact absurd rfl hn
    | cons c w => exact .seq (w := [c]) (.cls (hw c (by simp))) (star' w fun c hc => hw c (by simp [hc]))

theorem item_means {g : List Char → List Char → List Char} (hg : ∀ t y, g t y = t) {w v} (h : Entry w v) :
    ∀ y, Means none_ values g (.nt 0) w y v := by
  refine Entry.rec (motive_1 := fun w v _ => ∀ y, Means none_ values g (.nt 0) w y v)
    (motive_2 := fun w v _ => ∀ y, Means none_ values g items w y v) ?_ ?_ ?_ ?_ ?_ h
  · intro ds h1 h2 y
    refine .nt (.left ?_)
    have := Means.text (V := values) (g := g) (y := y) (.eps (R := none_)) (derives_digits.mpr ⟨h1, h2⟩)
    rw [hg] at this
    exact this
  · intro ts l _ ih y
    exact .nt (.right (.after (u := ['[']) (derives_lit.mpr rfl) (.before (ih _) (derives_lit.mpr rfl))))
  · exact fun y => .list_stop
  · exact fun _ ih y => Means.list_last (keep := true) (by simp) (ih y)
  · exact fun _ _ ih1 ih2 y => .list_more (u := [',']) (ih1 _) (derives_lit.mpr rfl) (ih2 y)

theorem means_item {g : List Char → List Char → List Char} (hg : ∀ t y, g t y = t) {E w y v}
    (h : Means none_ values g E w y v) :
    (E = .nt 0 ∨ E = values 0 ∨ E = brackets ∨ E = .text .eps digits → Entry w v) ∧
    (E = inner → ∃ ts, w = ts ++ [']'] ∧ Entries ts v) ∧ (E = items → Entries w v) := by
  induction h with
  | text h1 h2 =>
    refine ⟨?_, (fun he => by cases he), (fun he => by cases he)⟩
    rintro (h | h | h | h) <;> cases h
    cases h1
    rw [hg]
    exact .num (derives_digits.mp h2).1 (derives_digits.mp h2).2
  | nt _ ih =>
    refine ⟨?_, (fun he => by cases he), (fun he => by cases he)⟩
    rintro (h | h | h | h) <;> cases h
    exact ih.1 (.inr (.inl rfl))
  | after h1 _ ih =>
    refine ⟨?_, (fun he => by cases he), (fun he => by cases he)⟩
    rintro (h | h | h | h) <;> cases h
    cases derives_lit.mp h1
    obtain ⟨ts, rfl, h⟩ := ih.2.1 rfl
    exact .list h
  | before _ h2 ih =>
    refine ⟨?_, fun he => ?_, (fun he => by cases he)⟩
    · rintro (h | h | h | h) <;> cases h
    · cases he
      cases derives_lit.mp h2
      exact ⟨_, rfl, ih.2.2 rfl⟩
  | left _ ih =>
    refine ⟨?_, (fun he => by cases he), (fun he => by cases he)⟩
    rintro (h | h | h | h) <;> cases h
    exact ih.1 (by simp)
  | right _ ih =>
    refine ⟨?_, (fun he => by cases he), (fun he => by cases he)⟩
    rintro (h | h | h | h) <;> cases h
    exact ih.1 (by simp)
  | list_stop =>
    refine ⟨?_, (fun he => by cases he), fun he => ?_⟩
    · rintro (h | h | h | h) <;> cases h
    · cases he; exact .none
  | list_last _ _ ih =>
    refine ⟨?_, (fun he => by cases he), fun he => ?_⟩
    · rintro (h | h | h | h) <;> cases h
    · cases he; exact .last (ih.1 (.inl rfl))
  | list_more _ h2 _ ih1 ih2 =>
    refine ⟨?_, (fun he => by cases he), fun he => ?_⟩
    · rintro (h | h | h | h) <;> cases h
    · cases he
      cases derives_lit.mp h2
      exact .more (ih1.1 (.inl rfl)) (ih2.2.2 rfl)
  | _ =>
    refine ⟨?_, (fun he => by cases he), (fun he => by cases he)⟩
    rintro (h | h | h | h) <;> cases h

end Nested

/-- **C83 (nested lists).** The theorems applied: the grammar of nested lists of numbers constructs
exactly the values of nested lists, for every text. -/
theorem C83_nested (x : List Char) (v : Val (List Char)) :
    Constructs (σ := Unit) Nested.rules extractH none x (.cell 0) () 0 (.ok v () (blen x)) ↔ Nested.Entry x v := by
  rw [C83_tables_flat Nested.rules_pegs Nested.rules_values (.cell 0) Nested.flat trivial Nested.tables trivial
    (fun h hh => .inl hh) x (C63_handles_extract x) () v]
  exact ⟨fun h => (Nested.means_item (fun _ _ => rfl) h).1 (.inl rfl), fun h => Nested.item_means (fun _ _ => rfl) h []⟩

/-- Non-vacuity: a text, its value, and its construction. -/
example : Nested.Entry ['[', '1', '2', ',', '[', ']', ',', ']'] (.cons (.base ['1', '2']) (.cons .nil .nil)) ∧
    Constructs (σ := Unit) Nested.rules extractH none ['[', '1', '2', ',', '[', ']', ',', ']'] (.cell 0) () 0
      (.ok (.cons (.base ['1', '2']) (.cons .nil .nil)) () 8) :=
  ⟨.list (.more (t := ['1', '2']) (ts := ['[', ']', ',']) (.num (by simp) (by simp))
    (.more (t := ['[', ']']) (ts := []) (.list (ts := []) .none) .none)), 20, by decide +kernel⟩

/-- The theorem on ambiguity at work: a nested list has one value. -/
example {x : List Char} {v v' : Val (List Char)} (h : Nested.Entry x v) (h' : Nested.Entry x v') : v = v' :=
  (C83_unambiguous (E := .nt 0) (g := fun t _ => t) (Means.steady_of Nested.tables) trivial (C79_tables Nested.tables.texts)
    (Means.foreseen_of Nested.tables) (Nested.item_means (fun _ _ => rfl) h []) (Nested.item_means (fun _ _ => rfl) h' [])
    ⟨(· = none), fun _ hh => .inl hh, trivial, rfl⟩ ⟨(· = none), fun _ hh => .inl hh, trivial, rfl⟩ rfl).2

/-- Non-vacuity: a mapper that accepts all numbers. -/
example : EndsClean (fun _ => .fail) (fun _ => .fail) (fun t _ => t)
    (.map (fun v => some (.some v)) (.text .eps Nested.digits)) (.alt (.seq .eps Nested.digits) (.opt .eps)) :=
  C83_clean_map fun _ _ _ => by simp

/-! ## Why the conditions are needed -/

namespace Unclear

/-- `f` accepts every digit but `9`. -/
def not9 : Val (List Char) → Out (Val (List Char))
  | .base ['9'] => .err (.uid 1)
  | v => .ok v

def not9' : Val (List Char) → Option (Val (List Char))
  | .base ['9'] => none
  | v => some v

theorem elem {w y v} (h : Means (fun _ => .fail) (fun _ => .fail) (fun t _ => t)
    (.map not9' (.text .eps (.cls (Neu.isMatch (.pred Char.isDigit))))) w y v) : ∃ c, w = [c] ∧ c ≠ '9' := by
  cases h with
  | map h hf =>
    cases h with
    | text h1 h2 =>
      cases h1
      cases h2 with
      | @cls f c hc => exact ⟨c, rfl, fun h => by subst h; cases hf⟩

end Unclear

/-- **C83 (ambiguity).** Without the condition a text may have two values, and only the first
alternative is constructed. -/
theorem C83_ambiguous_counterexample :
    ∃ (p : Pat Char (List Char)) (E : VPeg Char (List Char)) (v v' : Val (List Char)), v ≠ v' ∧ AsVal .plain G0 p E ∧
      Means (fun _ => .fail) (fun _ => .fail) (fun t _ => t) E ['a'] [] v ∧
      Means (fun _ => .fail) (fun _ => .fail) (fun t _ => t) E ['a'] [] v' ∧
      Constructs (σ := Unit) G0 extractH none ['a'] p () 0 (.ok v () 1) ∧
      ¬ Constructs (σ := Unit) G0 extractH none ['a'] p () 0 (.ok v' () 1) := by
  have ha : Derives (fun _ => .fail) (.lit ['a']) ['a'] := Nested.derives_lit.mpr rfl
  have hc : Constructs (σ := Unit) (G0 (β := List Char)) extractH none ['a'] (.or (.lit ['a']) (.opt (.lit ['a']))) () 0
    (.ok (.base ['a']) () 1) := ⟨10, by decide +kernel⟩
  refine ⟨.or (.lit ['a']) (.opt (.lit ['a'])), _, .base ['a'], .some (.base ['a']), by simp,
    .or (.leaf trivial (by simp) (.lit _)) (.opt (.leaf trivial (by simp) (.lit _))), .left (.text .eps ha),
    .right (.one (.text .eps ha)), hc, fun h => ?_⟩
  cases h.unique hc

/-- **C83 (lists that do not end clean).** A list of mapped leaves whose mapper refuses a text of
the leaf accepts a text that has no value. -/
theorem C83_unclean_counterexample :
    ∃ (p : Pat Char (List Char)) (E : VPeg Char (List Char)) (v : Val (List Char)), AsVal .plain G0 p E ∧
      Constructs (σ := Unit) G0 extractH none ['1', ',', '9'] p () 0 (.ok v () 3) ∧
      ∀ v', ¬ Means (fun _ => .fail) (fun _ => .fail) (fun t _ => t) E ['1', ',', '9'] [] v' := by
  refine ⟨.sep (.map (.once (.pred Char.isDigit) .empty) Unclear.not9) (.lit [',']) true 0, _, .cons (.base ['1']) .nil,
    .sep true 0 (.map Unclear.not9' ?_ ?_ (.leaf trivial (by simp) (.once _))) (.mapLeaf trivial (by simp) (.once _))
      (.lit _), ⟨10, by decide +kernel⟩, ?_⟩
  · intro v
    unfold Unclear.not9
    split <;> simp
  · intro v w
    unfold Unclear.not9 Unclear.not9'
    split <;> simp
  · intro v' h
    generalize hx : ['1', ',', '9'] = x at h
    cases h with
    | list_stop => cases hx
    | list_last _ h => obtain ⟨c, rfl, _⟩ := Unclear.elem h; cases hx
    | list_more h1 h2 h3 =>
      obtain ⟨c, rfl, _⟩ := Unclear.elem h1
      cases Nested.derives_lit.mp h2
      cases hx
      generalize hx : ['9'] = x at h3
      cases h3 with
      | list_stop => cases hx
      | list_last _ h => obtain ⟨c, rfl, hc⟩ := Unclear.elem h; cases hx; exact hc rfl
      | list_more h1 h2 h3 =>
        obtain ⟨c, rfl, _⟩ := Unclear.elem h1
        cases Nested.derives_lit.mp h2
        cases hx

end Neure
