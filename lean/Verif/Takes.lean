import Verif.PropsAttr
import Verif.PropsUnit
import Verif.PropsCtorComb
/-!
# Lemmas: what a pattern takes from the input

Helper vocabulary for the concrete parsers of the documentation (C64 and later):
on a plain context a pattern takes a piece `t` of the input after `pre` and before
`y`.
-/

namespace Neure

set_option linter.unusedSectionVars false

variable {ι β σ : Type} [Item ι] {G : Rules ι β} {H : Handler ι β σ} {g : List ι → β}

/-- Between `pre` and `y` the pattern succeeds with exactly the pieces `t` of `P`. -/
def Takes (G : Rules ι β) (p : Pat ι β) (P : List ι → List ι → List ι → Prop) : Prop :=
  ∀ pre rest s o', Runs G none (pre ++ rest) p (blen pre) (.ok s o') ↔
    ∃ t y, rest = t ++ y ∧ P pre t y ∧ s = ⟨blen pre, blen t⟩ ∧ o' = blen pre + blen t

/-- The same when constructing; the value is related to the piece by `V`. -/
def Makes (G : Rules ι β) (H : Handler ι β σ) (p : Pat ι β)
    (V : List ι → List ι → List ι → Val β → Prop) : Prop :=
  ∀ pre rest st v st' o', Constructs G H none (pre ++ rest) p st (blen pre) (.ok v st' o') ↔
    ∃ t y, rest = t ++ y ∧ V pre t y v ∧ st' = st ∧ o' = blen pre + blen t

/-- The handler turns the text `t` into `g t` and keeps no state. -/
def TextH (H : Handler ι β σ) (g : List ι → β) : Prop := ∀ d, Handles H d fun t _ => g t

theorem Takes.congr {p : Pat ι β} {P Q : List ι → List ι → List ι → Prop} (h : Takes G p P)
    (hPQ : ∀ a t y, P a t y ↔ Q a t y) : Takes G p Q := by
  intro pre rest s o'; rw [h]; simp only [hPQ]

theorem Makes.congr {p : Pat ι β} {P Q : List ι → List ι → List ι → Val β → Prop} (h : Makes G H p P)
    (hPQ : ∀ a t y v, P a t y v ↔ Q a t y v) : Makes G H p Q := by
  intro pre rest st v st' o'; rw [h]; simp only [hPQ]

theorem hull_next (o a b : Nat) (s : Span) : Hull ⟨o, a⟩ ⟨o + a, b⟩ s ↔ s = ⟨o, a + b⟩ := by
  obtain ⟨x, y⟩ := s
  simp only [Hull, Span.mk.injEq]; omega

theorem takes_lit (l : List ι) : Takes (β := β) G (.lit l) fun _ t _ => t = l := by
  intro pre rest s o'
  rw [runs_plain, C12_literal pre rest l rfl]
  simp only [Res.ok.injEq, reduceCtorEq, and_false, or_false]
  constructor
  · rintro ⟨⟨t, rfl⟩, rfl, rfl⟩; exact ⟨l, t, rfl, rfl, rfl, rfl⟩
  · rintro ⟨_, y, rfl, rfl, rfl, rfl⟩; exact ⟨⟨y, rfl⟩, rfl, rfl⟩

theorem takes_start : Takes (β := β) G .start fun pre t _ => pre = [] ∧ t = [] := by
  intro pre rest s o'
  rw [runs_plain, (C12_anchors _ _).1]
  constructor
  · intro h
    split at h <;> cases h
    next h0 =>
    refine ⟨[], rest, rfl, ⟨?_, rfl⟩, by rw [h0]; rfl, by rw [h0]; rfl⟩
    cases pre with
    | nil => rfl
    | cons a x => have := blen_pos_cons a x; omega
  · rintro ⟨_, y, rfl, ⟨rfl, rfl⟩, rfl, rfl⟩; rfl

theorem takes_end : Takes (β := β) G .anchorEnd fun _ t y => t = [] ∧ y = [] := by
  intro pre rest s o'
  rw [runs_plain, (C12_anchors _ _).2.1]
  constructor
  · intro h
    split at h <;> cases h
    next h0 =>
    refine ⟨[], [], ?_, ⟨rfl, rfl⟩, rfl, rfl⟩
    cases rest with
    | nil => rfl
    | cons a x => have := blen_pos_cons a x; rw [blen_append] at h0; omega
  · rintro ⟨_, y, rfl, ⟨rfl, rfl⟩, rfl, rfl⟩; simp

/-- The greedy run of a unit: accepted items up to the end or a rejected one. -/
def Maximal (P : ι → Bool) (t y : List ι) : Prop :=
  (∀ x ∈ t, P x = true) ∧ ∀ x b, y = x :: b → P x = false

theorem maximal_split (P : ι → Bool) (l : List ι) :
    Maximal P (l.takeWhile P) (l.dropWhile P) := by
  refine ⟨fun x hx => by simpa using List.all_takeWhile (p := P) (l := l) ▸ List.all_eq_true.mp (List.all_takeWhile) x hx, ?_⟩
  induction l with
  | nil => intro x b h; cases h
  | cons a l ih =>
    intro x b h
    by_cases ha : P a
    · rw [List.dropWhile_cons_of_pos ha] at h; exact ih x b h
    · rw [List.dropWhile_cons_of_neg ha] at h; cases h; simpa using ha

theorem maximal_eq {P : ι → Bool} {t y : List ι} (h : Maximal P t y) : (t ++ y).takeWhile P = t := by
  obtain ⟨h1, h2⟩ := h
  induction t with
  | nil => cases y with
    | nil => rfl
    | cons x b => simp [h2 x b rfl]
  | cons x t ih =>
    simp [h1 x List.mem_cons_self]
    exact ih fun y hy => h1 y (List.mem_cons_of_mem _ hy)

theorem takes_many0 (u : Neu ι) : Takes (β := β) G (.many0 u .empty) fun _ t y => Maximal u.isMatch t y := by
  intro pre rest s o'
  rw [runs_plain, C23_many0_takeWhile u pre rest rfl]
  constructor
  · intro h; cases h
    exact ⟨_, _, (List.takeWhile_append_dropWhile).symm, maximal_split _ _, rfl, rfl⟩
  · rintro ⟨t, y, rfl, h, rfl, rfl⟩; rw [maximal_eq h]

theorem takes_many1 (u : Neu ι) :
    Takes (β := β) G (.many1 u .empty) fun _ t y => t ≠ [] ∧ Maximal u.isMatch t y := by
  intro pre rest s o'
  rw [runs_plain, C23_many1_takeWhile u pre rest rfl]
  constructor
  · intro h
    split at h
    · cases h
    · next hne =>
      cases h
      exact ⟨_, _, (List.takeWhile_append_dropWhile).symm, ⟨hne, maximal_split _ _⟩, rfl, rfl⟩
  · rintro ⟨t, y, rfl, ⟨hne, h⟩, rfl, rfl⟩; rw [maximal_eq h, if_neg hne]

/-- A run of at most `n` items: it ends at the limit, at the end or at a rejected item. -/
def MaximalUpTo (P : ι → Bool) (n : Nat) (t y : List ι) : Prop :=
  t.length ≤ n ∧ (∀ x ∈ t, P x = true) ∧ (t.length < n → ∀ x b, y = x :: b → P x = false)

theorem takes_between (m n : Nat) (u : Neu ι) (hf : u.Fair) :
    Takes (β := β) G (.between m n u .empty) fun _ t y => m ≤ t.length ∧ MaximalUpTo u.isMatch n t y := by
  intro pre rest s o'
  have hv : Valid (pre ++ rest) (blen pre) := ⟨pre, rest, rfl, rfl⟩
  have hdr : dropB (pre ++ rest) (blen pre) = some rest := dropB_append _ _
  rw [runs_plain, (C24_between m n u hf .empty (blen pre) hv).1]
  constructor
  · rintro ⟨run, y, hg, hm, rfl, rfl⟩
    refine ⟨run, y, hg.split hdr, ⟨hm, ?_, fun x hx => ?_, fun hlt x b hy => ?_⟩, rfl, rfl⟩
    · rcases List.eq_nil_or_concat run with rfl | ⟨a, x, rfl⟩
      · simp
      · have := (hg.2.1 a x [] (by simp)).1
        simpa using this
    · obtain ⟨a, b, rfl⟩ := List.append_of_mem hx
      have := (hg.2.1 a x b rfl).2
      simpa [ItemGives, CondGives] using this
    · have := hg.2.2 x b hy hlt
      simpa [ItemGives, CondGives] using this
  · rintro ⟨t, y, rfl, ⟨hm, hn, h1, h2⟩, rfl, rfl⟩
    refine ⟨t, y, ⟨⟨pre, by simp, rfl⟩, fun a x b hab => ⟨?_, ?_⟩, fun x b hy hlt => ?_⟩, hm, rfl, rfl⟩
    · subst hab; simp at hn; show a.length + 1 ≤ n; omega
    · have := h1 x (by simp [hab])
      simp [ItemGives, CondGives, this]
    · have := h2 hlt x b hy
      simp [ItemGives, CondGives, this]

section Seq
variable {a b c : Pat ι β} {P Q R : List ι → List ι → List ι → Prop}
  {V W : List ι → List ι → List ι → Val β → Prop}

theorem takes_thn (ha : Takes G a P) (hb : Takes G b Q) :
    Takes G (.thn a b) fun pre t y => ∃ t1 t2, t = t1 ++ t2 ∧ P pre t1 (t2 ++ y) ∧ Q (pre ++ t1) t2 y := by
  intro pre rest s o'
  rw [runs_plain, (C08_then a b _).1]
  constructor
  · rintro ⟨s1, o1, s2, h1, h2, h3⟩
    obtain ⟨t1, y1, rfl, hp, rfl, rfl⟩ := (ha _ _ _ _).mp h1
    rw [← List.append_assoc, ← blen_append] at h2
    obtain ⟨t2, y, rfl, hq, rfl, rfl⟩ := (hb _ _ _ _).mp h2
    rw [blen_append, hull_next] at h3
    exact ⟨t1 ++ t2, y, by simp, ⟨t1, t2, rfl, hp, hq⟩, by simp [h3], by simp; omega⟩
  · rintro ⟨_, y, rfl, ⟨t1, t2, rfl, hp, hq⟩, rfl, rfl⟩
    refine ⟨_, _, ⟨blen pre + blen t1, blen t2⟩,
      (ha _ _ _ _).mpr ⟨t1, t2 ++ y, by simp, hp, rfl, rfl⟩, ?_, ?_⟩
    · have := (hb (pre ++ t1) (t2 ++ y) _ _).mpr ⟨t2, y, rfl, hq, rfl, rfl⟩
      simp only [List.append_assoc, blen_append] at this ⊢
      rw [Nat.add_assoc] at this; exact this
    · rw [hull_next]; simp

theorem takes_sepOnce (ha : Takes G a P) (hb : Takes G b Q) (hc : Takes G c R) :
    Takes G (.sepOnce a b c) fun pre t y => ∃ t1 t2 t3, t = t1 ++ (t2 ++ t3) ∧ P pre t1 (t2 ++ t3 ++ y) ∧
      Q (pre ++ t1) t2 (t3 ++ y) ∧ R (pre ++ t1 ++ t2) t3 y := by
  intro pre rest s o'
  rw [runs_plain, (C08_sep_once a b c _).1]
  constructor
  · rintro ⟨s1, o1, s2, o2, s3, u1, u2, h1, h2, h3, e1, e2, e3⟩
    obtain ⟨t1, y1, rfl, hp, rfl, rfl⟩ := (ha _ _ _ _).mp h1
    rw [← List.append_assoc, ← blen_append] at h2
    obtain ⟨t2, y, rfl, hq, rfl, rfl⟩ := (hb _ _ _ _).mp h2
    rw [show pre ++ (t1 ++ (t2 ++ y)) = (pre ++ t1 ++ t2) ++ y by simp, ← blen_append] at h3
    obtain ⟨t3, y, rfl, hr, rfl, rfl⟩ := (hc _ _ _ _).mp h3
    have e1' := (hull_next (blen pre) 0 (blen t1) u1).mp e1; subst e1'
    simp only [blen_append, Nat.zero_add] at e2
    have e2' := (hull_next _ _ _ _).mp e2; subst e2'
    simp only [blen_append, Nat.add_assoc] at e3
    have e3' := (hull_next _ _ _ _).mp e3; subst e3'
    exact ⟨t1 ++ (t2 ++ t3), y, by simp, ⟨t1, t2, t3, rfl, by simpa using hp, hq, hr⟩, by simp; omega, by simp; omega⟩
  · rintro ⟨_, y, rfl, ⟨t1, t2, t3, rfl, hp, hq, hr⟩, rfl, rfl⟩
    refine ⟨⟨blen pre, blen t1⟩, blen pre + blen t1, ⟨blen pre + blen t1, blen t2⟩,
      blen pre + (blen t1 + blen t2), ⟨blen pre + (blen t1 + blen t2), blen t3⟩,
      ⟨blen pre, blen t1⟩, ⟨blen pre, blen t1 + blen t2⟩,
      (ha _ _ _ _).mpr ⟨t1, t2 ++ t3 ++ y, by simp, hp, rfl, rfl⟩, ?_, ?_, ?_, ?_, ?_⟩
    · have := (hb (pre ++ t1) (t2 ++ (t3 ++ y)) _ _).mpr ⟨t2, t3 ++ y, rfl, hq, rfl, rfl⟩
      simpa only [List.append_assoc, blen_append, Nat.add_assoc] using this
    · have := (hc (pre ++ t1 ++ t2) (t3 ++ y) _ _).mpr ⟨t3, y, rfl, hr, rfl, rfl⟩
      simpa only [List.append_assoc, blen_append, Nat.add_assoc] using this
    · have := (hull_next (blen pre) 0 (blen t1) ⟨blen pre, blen t1⟩).mpr (by simp)
      exact this
    · exact (hull_next _ _ _ _).mpr rfl
    · exact (hull_next _ _ _ _).mpr (by simp only [blen_append, Nat.add_assoc])

theorem makes_leaf (hH : TextH H g) {p : Pat ι β} (hl : Leaf p) (hp : Takes G p P) :
    Makes G H p fun pre t y v => P pre t y ∧ v = .base (g t) := by
  intro pre rest st v st' o'
  rw [(C52_primitive_construct p hl st _).1]
  constructor
  · rintro ⟨s, b, h, hh, rfl⟩
    obtain ⟨t, y, rfl, hp', rfl, rfl⟩ := (hp _ _ _ _).mp h
    rw [hH _ pre t y _ _ (by simp)] at hh
    cases hh
    exact ⟨t, y, rfl, ⟨hp', rfl⟩, rfl, rfl⟩
  · rintro ⟨t, y, rfl, ⟨hp', rfl⟩, rfl, rfl⟩
    exact ⟨_, _, (hp _ _ _ _).mpr ⟨t, y, rfl, hp', rfl, rfl⟩, hH _ pre t y _ _ (by simp), rfl⟩

theorem makes_map {p : Pat ι β} (hp : Makes G H p V) (f : Val β → Out (Val β)) :
    Makes G H (.map p f) fun pre t y w => ∃ v, V pre t y v ∧ f v = .ok w := by
  intro pre rest st v st' o'
  rw [(C52_map_construct p f st _).1]
  constructor
  · rintro ⟨v, h, hf⟩
    obtain ⟨t, y, rfl, hv, rfl, rfl⟩ := (hp _ _ _ _ _ _).mp h
    exact ⟨t, y, rfl, ⟨v, hv, hf⟩, rfl, rfl⟩
  · rintro ⟨t, y, rfl, ⟨v, hv, hf⟩, rfl, rfl⟩
    exact ⟨v, (hp _ _ _ _ _ _).mpr ⟨t, y, rfl, hv, rfl, rfl⟩, hf⟩

theorem makes_thn (ha : Makes G H a V) (hb : Makes G H b W) :
    Makes G H (.thn a b) fun pre t y v => ∃ t1 t2 v1 v2, t = t1 ++ t2 ∧ v = .pair v1 v2 ∧
      V pre t1 (t2 ++ y) v1 ∧ W (pre ++ t1) t2 y v2 := by
  intro pre rest st v st' o'
  rw [(C08_then_construct a b st _).1]
  constructor
  · rintro ⟨v1, v2, st1, o1, rfl, h1, h2⟩
    obtain ⟨t1, y1, rfl, hp, rfl, rfl⟩ := (ha _ _ _ _ _ _).mp h1
    rw [← List.append_assoc, ← blen_append] at h2
    obtain ⟨t2, y, rfl, hq, rfl, rfl⟩ := (hb _ _ _ _ _ _).mp h2
    exact ⟨t1 ++ t2, y, by simp, ⟨t1, t2, v1, v2, rfl, rfl, hp, hq⟩, rfl, by simp; omega⟩
  · rintro ⟨_, y, rfl, ⟨t1, t2, v1, v2, rfl, rfl, hp, hq⟩, rfl, rfl⟩
    refine ⟨v1, v2, _, _, rfl, (ha _ _ _ _ _ _).mpr ⟨t1, t2 ++ y, by simp, hp, rfl, rfl⟩, ?_⟩
    have := (hb (pre ++ t1) (t2 ++ y) st' _ _ _).mpr ⟨t2, y, rfl, hq, rfl, rfl⟩
    simpa only [List.append_assoc, blen_append, Nat.add_assoc] using this

theorem makes_pre (ha : Takes G a P) (hb : Makes G H b W) :
    Makes G H (.pre a b) fun pre t y v => ∃ t1 t2, t = t1 ++ t2 ∧
      P pre t1 (t2 ++ y) ∧ W (pre ++ t1) t2 y v := by
  intro pre rest st v st' o'
  rw [(C08_prefix_construct a b st _).1]
  constructor
  · rintro ⟨s, o1, h1, h2⟩
    obtain ⟨t1, y1, rfl, hp, rfl, rfl⟩ := (ha _ _ _ _).mp h1
    rw [← List.append_assoc, ← blen_append] at h2
    obtain ⟨t2, y, rfl, hq, rfl, rfl⟩ := (hb _ _ _ _ _ _).mp h2
    exact ⟨t1 ++ t2, y, by simp, ⟨t1, t2, rfl, hp, hq⟩, rfl, by simp; omega⟩
  · rintro ⟨_, y, rfl, ⟨t1, t2, rfl, hp, hq⟩, rfl, rfl⟩
    refine ⟨_, _, (ha _ _ _ _).mpr ⟨t1, t2 ++ y, by simp, hp, rfl, rfl⟩, ?_⟩
    have := (hb (pre ++ t1) (t2 ++ y) st' _ _ _).mpr ⟨t2, y, rfl, hq, rfl, rfl⟩
    simpa only [List.append_assoc, blen_append, Nat.add_assoc] using this

theorem makes_suf (ha : Makes G H a V) (hb : Takes G b Q) :
    Makes G H (.suf a b) fun pre t y v => ∃ t1 t2, t = t1 ++ t2 ∧
      V pre t1 (t2 ++ y) v ∧ Q (pre ++ t1) t2 y := by
  intro pre rest st v st' o'
  rw [(C08_suffix_construct a b st _).1]
  constructor
  · rintro ⟨s, o1, h1, h2⟩
    obtain ⟨t1, y1, rfl, hp, rfl, rfl⟩ := (ha _ _ _ _ _ _).mp h1
    rw [← List.append_assoc, ← blen_append] at h2
    obtain ⟨t2, y, rfl, hq, rfl, rfl⟩ := (hb _ _ _ _).mp h2
    exact ⟨t1 ++ t2, y, by simp, ⟨t1, t2, rfl, hp, hq⟩, rfl, by simp; omega⟩
  · rintro ⟨_, y, rfl, ⟨t1, t2, rfl, hp, hq⟩, rfl, rfl⟩
    refine ⟨⟨blen pre + blen t1, blen t2⟩, _,
      (ha _ _ _ _ _ _).mpr ⟨t1, t2 ++ y, by simp, hp, rfl, rfl⟩, ?_⟩
    have := (hb (pre ++ t1) (t2 ++ y) _ _).mpr ⟨t2, y, rfl, hq, rfl, rfl⟩
    simpa only [List.append_assoc, blen_append, Nat.add_assoc] using this

theorem makes_enclose (ha : Takes G a P) (hb : Makes G H b W) (hc : Takes G c R) :
    Makes G H (.enclose a b c) fun pre t y v => ∃ t1 t2 t3, t = t1 ++ (t2 ++ t3) ∧
      P pre t1 (t2 ++ t3 ++ y) ∧ W (pre ++ t1) t2 (t3 ++ y) v ∧ R (pre ++ t1 ++ t2) t3 y := by
  intro pre rest st v st' o'
  have h1 := makes_pre ha (makes_suf hb hc) pre rest st v st' o'
  rw [constructs_iff, ← Attr.conL_enclose_eq, ← constructs_iff] at h1
  rw [h1]
  constructor
  · rintro ⟨_, y, rfl, ⟨t1, _, rfl, hp, t2, t3, rfl, hw, hr⟩, rfl, rfl⟩
    exact ⟨_, y, rfl, ⟨t1, t2, t3, rfl, by simpa using hp, hw, hr⟩, rfl, rfl⟩
  · rintro ⟨_, y, rfl, ⟨t1, t2, t3, rfl, hp, hw, hr⟩, rfl, rfl⟩
    exact ⟨_, y, rfl, ⟨t1, _, rfl, by simpa using hp, t2, t3, rfl, hw, hr⟩, rfl, rfl⟩

theorem makes_sepOnce (ha : Makes G H a V) (hb : Takes G b Q) (hc : Makes G H c W) :
    Makes G H (.sepOnce a b c) fun pre t y v => ∃ t1 t2 t3 v1 v2, t = t1 ++ (t2 ++ t3) ∧ v = .pair v1 v2 ∧
      V pre t1 (t2 ++ t3 ++ y) v1 ∧ Q (pre ++ t1) t2 (t3 ++ y) ∧ W (pre ++ t1 ++ t2) t3 y v2 := by
  intro pre rest st v st' o'
  have h1 := makes_thn ha (makes_pre hb hc) pre rest st v st' o'
  rw [constructs_iff, ← Attr.conL_sepOnce_eq, ← constructs_iff] at h1
  rw [h1]
  constructor
  · rintro ⟨_, y, rfl, ⟨t1, _, v1, v2, rfl, rfl, hp, t2, t3, rfl, hw, hr⟩, rfl, rfl⟩
    exact ⟨_, y, rfl, ⟨t1, t2, t3, v1, v2, rfl, rfl, by simpa using hp, hw, hr⟩, rfl, rfl⟩
  · rintro ⟨_, y, rfl, ⟨t1, t2, t3, v1, v2, rfl, rfl, hp, hw, hr⟩, rfl, rfl⟩
    exact ⟨_, y, rfl, ⟨t1, _, v1, v2, rfl, rfl, by simpa using hp, t2, t3, rfl, hw, hr⟩, rfl, rfl⟩

end Seq
end Neure
