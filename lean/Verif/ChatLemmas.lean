import Verif.ChatLog
import Verif.PropsApi
import Verif.PropsCtorComb
import Verif.PropsCtorLoop
import Verif.PropsCtor
/-!
# Exact reading, put together from the parts (lemmas for C105)
-/

namespace Neure.Chat

set_option linter.unusedSectionVars false
set_option linter.unusedSimpArgs false

open Demo

variable {G : Rules Char (List Char)}

abbrev V := Val (List Char)

/-- What `p` builds, exactly: `P a t v` says that `a`, followed by `t`, is read with value `v`. -/
structure Reads (G : Rules Char (List Char)) (p : Pat Char (List Char)) (P : List Char → List Char → V → Prop) : Prop where
  ok : ∀ pre rest v o', Constructs G extractH none (pre ++ rest) p () (blen pre) (.ok v () o') ↔
    ∃ a t, rest = a ++ t ∧ P a t v ∧ o' = blen (pre ++ a)
  total : ∀ pre rest, (∃ v o', Constructs G extractH none (pre ++ rest) p () (blen pre) (.ok v () o')) ∨
    ∃ e o', Constructs G extractH none (pre ++ rest) p () (blen pre) (.err e () o')

/-- The same for matching. -/
structure Passes (G : Rules Char (List Char)) (p : Pat Char (List Char)) (P : List Char → List Char → Prop) : Prop where
  ok : ∀ pre rest o', (∃ s, Runs G none (pre ++ rest) p (blen pre) (.ok s o')) ↔
    ∃ a t, rest = a ++ t ∧ P a t ∧ o' = blen (pre ++ a)
  total : ∀ pre rest, (∃ s o', Runs G none (pre ++ rest) p (blen pre) (.ok s o')) ∨
    ∃ e o', Runs G none (pre ++ rest) p (blen pre) (.err e o')

theorem Reads.at {p P} (h : Reads G p P) {d pre rest : List Char} (hd : d = pre ++ rest) (v : V) (o' : Nat) :
    Constructs G extractH none d p () (blen pre) (.ok v () o') ↔
      ∃ a t, rest = a ++ t ∧ P a t v ∧ o' = blen (pre ++ a) := by subst hd; exact h.ok _ _ _ _

theorem Passes.at {p P} (h : Passes G p P) {d pre rest : List Char} (hd : d = pre ++ rest) (o' : Nat) :
    (∃ s, Runs G none d p (blen pre) (.ok s o')) ↔
      ∃ a t, rest = a ++ t ∧ P a t ∧ o' = blen (pre ++ a) := by subst hd; exact h.ok _ _ _

theorem Reads.both {p P} (h : Reads G p P) {d pre rest : List Char} (hd : d = pre ++ rest) :
    (∃ a t v, rest = a ++ t ∧ P a t v ∧ Constructs G extractH none d p () (blen pre) (.ok v () (blen (pre ++ a)))) ∨
    ∃ e o', Constructs G extractH none d p () (blen pre) (.err e () o') := by
  subst hd
  rcases h.total pre rest with ⟨v, o', h'⟩ | h'
  · obtain ⟨a, t, e, hp, rfl⟩ := (h.ok _ _ _ _).mp h'
    exact .inl ⟨a, t, v, e, hp, h'⟩
  · exact .inr h'

theorem Passes.both {p P} (h : Passes G p P) {d pre rest : List Char} (hd : d = pre ++ rest) :
    (∃ a t s, rest = a ++ t ∧ P a t ∧ Runs G none d p (blen pre) (.ok s (blen (pre ++ a)))) ∨
    ∃ e o', Runs G none d p (blen pre) (.err e o') := by
  subst hd
  rcases h.total pre rest with ⟨s, o', h'⟩ | h'
  · obtain ⟨a, t, e, hp, rfl⟩ := (h.ok _ _ _).mp ⟨_, h'⟩
    exact .inl ⟨a, t, s, e, hp, h'⟩
  · exact .inr h'

/-! ## Parts -/

/-- A leaf that gives exact spans. -/
theorem reads_leaf {p : Pat Char (List Char)} (hl : Leaf p) {P} (h : Passes G p P)
    (hx : ∀ pre rest s o', Runs G none (pre ++ rest) p (blen pre) (.ok s o') → s.beg = blen pre ∧ s.beg + s.len = o') :
    Reads G p fun a t v => P a t ∧ v = .base a := by
  have val : ∀ pre a t s, Runs G none (pre ++ (a ++ t)) p (blen pre) (.ok s (blen (pre ++ a))) →
      extractH (σ := Unit) (pre ++ (a ++ t)) (blen (pre ++ a)) s () = (.ok a, ()) := by
    intro pre a t s hr
    obtain ⟨e1, e2⟩ := hx _ _ _ _ hr
    rw [blen_append] at e2
    have : s = ⟨blen pre, blen a⟩ := by
      obtain ⟨b, n⟩ := s
      simp only at e1 e2
      subst e1
      congr 1; omega
    subst this
    simp only [extractH]
    rw [origSub_ok.mpr ⟨pre, t, by simp, rfl, rfl⟩]
  have hc := fun pre rest => C52_primitive_construct (G := G) (H := extractH (σ := Unit)) (pol := none)
    (d := pre ++ rest) p hl () (blen pre)
  constructor
  · intro pre rest v o'
    rw [(hc pre rest).1]
    constructor
    · rintro ⟨s, b, hr, hb, rfl⟩
      obtain ⟨a, t, rfl, hp, rfl⟩ := (h.ok _ _ _).mp ⟨s, hr⟩
      rw [val _ _ _ _ hr] at hb
      injection hb with hb _
      injection hb with hb
      exact ⟨a, t, rfl, ⟨hp, by rw [hb]⟩, rfl⟩
    · rintro ⟨a, t, rfl, ⟨hp, rfl⟩, rfl⟩
      obtain ⟨s, hr⟩ := (h.ok pre (a ++ t) _).mpr ⟨a, t, rfl, hp, rfl⟩
      exact ⟨s, a, hr, val _ _ _ _ hr, rfl⟩
  · intro pre rest
    rcases h.both (pre := pre) (rest := rest) rfl with ⟨a, t, s, rfl, hp, hr⟩ | ⟨e, o', hr⟩
    · exact .inl ⟨_, _, ((hc pre _).1 _ _ _).mpr ⟨s, a, hr, val _ _ _ _ hr, rfl⟩⟩
    · exact .inr ⟨e, o', ((hc pre _).2.1 _ _ _).mpr (.inl ⟨hr, rfl⟩)⟩

theorem passes_lit (l : List Char) : Passes G (.lit l) fun a _ => a = l := by
  constructor
  · intro pre rest o'
    simp only [runs_plain, C12_literal pre rest l rfl]
    constructor
    · rintro ⟨s, ⟨⟨t, rfl⟩, h⟩ | ⟨_, h⟩⟩
      · cases h; exact ⟨l, t, rfl, rfl, by rw [blen_append]⟩
      · cases h
    · rintro ⟨a, t, rfl, rfl, rfl⟩
      exact ⟨_, .inl ⟨⟨t, rfl⟩, by rw [blen_append]⟩⟩
  · intro pre rest
    simp only [runs_plain, C12_literal pre rest l rfl]
    by_cases h : ∃ t, rest = l ++ t
    · exact .inl ⟨_, _, .inl ⟨h, rfl⟩⟩
    · exact .inr ⟨_, _, .inr ⟨h, rfl⟩⟩

theorem reads_lit (l : List Char) : Reads G (.lit l) fun a _ v => a = l ∧ v = .base a :=
  reads_leaf (by exact trivial) (passes_lit l) fun pre rest s o' h => by
    rcases (C12_literal pre rest l rfl _).mp (runs_plain.mp h) with ⟨_, h⟩ | ⟨_, h⟩ <;> cases h
    exact ⟨rfl, rfl⟩

/-- `t` does not begin with an item of the class. -/
def Off (W : Char → Prop) (t : List Char) : Prop := ∀ c l, t = c :: l → ¬ W c

theorem takeWhile_run {u : Neu Char} {a t : List Char} (h : ∀ c ∈ a, u.isMatch c = true)
    (ht : Off (fun c => u.isMatch c = true) t) : (a ++ t).takeWhile u.isMatch = a := by
  rw [List.takeWhile_append_of_pos h]
  cases t with
  | nil => simp
  | cons c l => simp [List.takeWhile_cons, ht c l rfl]

theorem takeWhile_off (u : Neu Char) (l : List Char) : Off (fun c => u.isMatch c = true) (l.dropWhile u.isMatch) := by
  intro c x h hc
  have := List.head?_dropWhile_not u.isMatch l
  rw [h] at this
  simp [hc] at this

theorem passes_many0 (u : Neu Char) : Passes G (.many0 u .empty) fun a t =>
    (∀ c ∈ a, u.isMatch c = true) ∧ Off (fun c => u.isMatch c = true) t := by
  constructor
  · intro pre rest o'
    simp only [runs_plain, C23_many0_takeWhile u pre rest rfl]
    constructor
    · rintro ⟨s, h⟩
      cases h
      exact ⟨_, rest.dropWhile u.isMatch, List.takeWhile_append_dropWhile.symm,
        ⟨fun c hc => List.all_eq_true.mp List.all_takeWhile c hc, takeWhile_off u rest⟩, by rw [blen_append]⟩
    · rintro ⟨a, t, rfl, ⟨h1, h2⟩, rfl⟩
      rw [takeWhile_run h1 h2]
      exact ⟨_, by rw [blen_append]⟩
  · intro pre rest
    exact .inl ⟨_, _, (C23_many0_takeWhile u pre rest rfl _).mpr rfl⟩

theorem passes_many1 (u : Neu Char) : Passes G (.many1 u .empty) fun a t =>
    a ≠ [] ∧ (∀ c ∈ a, u.isMatch c = true) ∧ Off (fun c => u.isMatch c = true) t := by
  constructor
  · intro pre rest o'
    simp only [runs_plain, C23_many1_takeWhile u pre rest rfl]
    constructor
    · rintro ⟨s, h⟩
      split at h <;> cases h
      next hne =>
      exact ⟨_, rest.dropWhile u.isMatch, List.takeWhile_append_dropWhile.symm,
        ⟨hne, fun c hc => List.all_eq_true.mp List.all_takeWhile c hc, takeWhile_off u rest⟩, by rw [blen_append]⟩
    · rintro ⟨a, t, rfl, ⟨h0, h1, h2⟩, rfl⟩
      rw [takeWhile_run h1 h2, if_neg h0]
      exact ⟨_, by rw [blen_append]⟩
  · intro pre rest
    have := fun r => C23_many1_takeWhile (β := List Char) (G := G) (pol := none) u pre rest rfl r
    by_cases h : rest.takeWhile u.isMatch = []
    · exact .inr ⟨_, _, (this _).mpr (by rw [if_pos h])⟩
    · exact .inl ⟨_, _, (this _).mpr (by rw [if_neg h])⟩

theorem reads_many1 (u : Neu Char) : Reads G (.many1 u .empty) fun a t v =>
    (a ≠ [] ∧ (∀ c ∈ a, u.isMatch c = true) ∧ Off (fun c => u.isMatch c = true) t) ∧ v = .base a :=
  reads_leaf (by exact trivial) (passes_many1 u) fun pre rest s o' h => by
    have h := (C23_many1_takeWhile u pre rest rfl _).mp (runs_plain.mp h)
    split at h <;> cases h
    exact ⟨rfl, rfl⟩

theorem passes_count (n : Nat) (u : Neu Char) (hf : u.Fair) : Passes G (.between n n u .empty) fun a _ =>
    a.length = n ∧ ∀ c ∈ a, u.isMatch c = true := by
  have take : ∀ a t : List Char, a.length = n → (∀ c ∈ a, u.isMatch c = true) →
      ((a ++ t).takeWhile u.isMatch).take n = a := by
    intro a t hn h
    rw [List.takeWhile_append_of_pos h, ← hn, List.take_left]
  constructor
  · intro pre rest o'
    simp only [runs_plain, C24_between_takeWhile n n u hf pre rest rfl]
    constructor
    · rintro ⟨s, h⟩
      split at h <;> cases h
      next hn =>
      refine ⟨(rest.takeWhile u.isMatch).take n, (rest.takeWhile u.isMatch).drop n ++ rest.dropWhile u.isMatch, ?_, ⟨?_, ?_⟩,
        by rw [blen_append]⟩
      · rw [← List.append_assoc, List.take_append_drop, List.takeWhile_append_dropWhile]
      · rw [List.length_take] at hn ⊢; omega
      · intro c hc
        exact List.all_eq_true.mp List.all_takeWhile c (List.mem_of_mem_take hc)
    · rintro ⟨a, t, rfl, ⟨h0, h1⟩, rfl⟩
      rw [take a t h0 h1, if_pos (by omega)]
      exact ⟨_, by rw [blen_append]⟩
  · intro pre rest
    have := fun r => C24_between_takeWhile (β := List Char) (G := G) (pol := none) n n u hf pre rest rfl r
    by_cases h : n ≤ ((rest.takeWhile u.isMatch).take n).length
    · exact .inl ⟨_, _, (this _).mpr (by rw [if_pos h])⟩
    · exact .inr ⟨_, _, (this _).mpr (by rw [if_neg h])⟩

theorem reads_count (n : Nat) (u : Neu Char) (hf : u.Fair) : Reads G (.between n n u .empty) fun a _ v =>
    (a.length = n ∧ ∀ c ∈ a, u.isMatch c = true) ∧ v = .base a :=
  reads_leaf (by exact trivial) (passes_count n u hf) fun pre rest s o' h => by
    have h := (C24_between_takeWhile n n u hf pre rest rfl _).mp (runs_plain.mp h)
    split at h <;> cases h
    exact ⟨rfl, rfl⟩

/-! ## Combinations -/

theorem reads_pre {a b : Pat Char (List Char)} {A B} (ha : Passes G a A) (hb : Reads G b B) :
    Reads G (.pre a b) fun x t v => ∃ y z, x = y ++ z ∧ A y (z ++ t) ∧ B z t v := by
  have hc := fun pre rest => C08_prefix_construct (G := G) (H := extractH (σ := Unit)) (pol := none)
    (d := pre ++ rest) a b () (blen pre)
  constructor
  · intro pre rest v o'
    rw [(hc pre rest).1]
    constructor
    · rintro ⟨s, o1, h1, h2⟩
      obtain ⟨y, t1, rfl, hA, rfl⟩ := (ha.ok _ _ _).mp ⟨s, h1⟩
      obtain ⟨z, t, rfl, hB, rfl⟩ := (hb.at (pre := pre ++ y) (rest := t1) (by simp) _ _).mp h2
      exact ⟨y ++ z, t, by simp, ⟨y, z, rfl, hA, hB⟩, by simp⟩
    · rintro ⟨x, t, rfl, ⟨y, z, rfl, hA, hB⟩, rfl⟩
      obtain ⟨s, h1⟩ := (ha.ok pre (y ++ z ++ t) _).mpr ⟨y, z ++ t, by simp, hA, rfl⟩
      exact ⟨s, _, h1, (hb.at (pre := pre ++ y) (rest := z ++ t) (by simp) _ _).mpr ⟨z, t, rfl, hB, by simp⟩⟩
  · intro pre rest
    rcases ha.both (pre := pre) (rest := rest) rfl with ⟨y, t, s, rfl, hA, h1⟩ | ⟨e, o', h1⟩
    · rcases hb.both (d := pre ++ (y ++ t)) (pre := pre ++ y) (rest := t) (by simp) with ⟨z, t, v, _, _, h2⟩ | ⟨e, o', h2⟩
      · exact .inl ⟨_, _, ((hc pre _).1 _ _ _).mpr ⟨_, _, h1, h2⟩⟩
      · exact .inr ⟨_, _, ((hc pre _).2 _ _ _).mpr ⟨rfl, .inr ⟨_, _, _, h1, h2⟩⟩⟩
    · exact .inr ⟨_, _, ((hc pre _).2 _ _ _).mpr ⟨rfl, .inl ⟨rfl, _, h1⟩⟩⟩

theorem reads_suf {a b : Pat Char (List Char)} {A B} (ha : Reads G a A) (hb : Passes G b B) :
    Reads G (.suf a b) fun x t v => ∃ y z, x = y ++ z ∧ A y (z ++ t) v ∧ B z t := by
  have hc := fun pre rest => C08_suffix_construct (G := G) (H := extractH (σ := Unit)) (pol := none)
    (d := pre ++ rest) a b () (blen pre)
  constructor
  · intro pre rest v o'
    rw [(hc pre rest).1]
    constructor
    · rintro ⟨s, o1, h1, h2⟩
      obtain ⟨y, t1, rfl, hA, rfl⟩ := (ha.ok _ _ _ _).mp h1
      obtain ⟨z, t, rfl, hB, rfl⟩ := (hb.at (pre := pre ++ y) (rest := t1) (by simp) _).mp ⟨_, h2⟩
      exact ⟨y ++ z, t, by simp, ⟨y, z, rfl, hA, hB⟩, by simp⟩
    · rintro ⟨x, t, rfl, ⟨y, z, rfl, hA, hB⟩, rfl⟩
      have h1 := (ha.ok pre (y ++ z ++ t) v _).mpr ⟨y, z ++ t, by simp, hA, rfl⟩
      obtain ⟨s, h2⟩ := (hb.at (d := pre ++ (y ++ z ++ t)) (pre := pre ++ y) (rest := z ++ t) (by simp) _).mpr ⟨z, t, rfl, hB, rfl⟩
      exact ⟨s, _, h1, by simpa using h2⟩
  · intro pre rest
    rcases ha.both (pre := pre) (rest := rest) rfl with ⟨y, t, v, rfl, hA, h1⟩ | ⟨e, o', h1⟩
    · rcases hb.both (d := pre ++ (y ++ t)) (pre := pre ++ y) (rest := t) (by simp) with ⟨z, t, s, _, _, h2⟩ | ⟨e, o', h2⟩
      · exact .inl ⟨_, _, ((hc pre _).1 _ _ _).mpr ⟨_, _, h1, h2⟩⟩
      · exact .inr ⟨_, _, ((hc pre _).2 _ _ _).mpr ⟨rfl, .inr ⟨_, _, _, h1, h2⟩⟩⟩
    · exact .inr ⟨_, _, ((hc pre _).2 _ _ _).mpr ⟨rfl, .inl ⟨_, h1⟩⟩⟩

theorem reads_thn {a b : Pat Char (List Char)} {A B} (ha : Reads G a A) (hb : Reads G b B) :
    Reads G (.thn a b) fun x t v => ∃ y z v1 v2, x = y ++ z ∧ v = .pair v1 v2 ∧ A y (z ++ t) v1 ∧ B z t v2 := by
  have hc := fun pre rest => C08_then_construct (G := G) (H := extractH (σ := Unit)) (pol := none)
    (d := pre ++ rest) a b () (blen pre)
  constructor
  · intro pre rest v o'
    rw [(hc pre rest).1]
    constructor
    · rintro ⟨v1, v2, st, o1, rfl, h1, h2⟩
      obtain ⟨y, t1, rfl, hA, rfl⟩ := (ha.ok _ _ _ _).mp h1
      obtain ⟨z, t, rfl, hB, rfl⟩ := (hb.at (pre := pre ++ y) (rest := t1) (by simp) _ _).mp h2
      exact ⟨y ++ z, t, by simp, ⟨y, z, v1, v2, rfl, rfl, hA, hB⟩, by simp⟩
    · rintro ⟨x, t, rfl, ⟨y, z, v1, v2, rfl, rfl, hA, hB⟩, rfl⟩
      have h1 := (ha.ok pre (y ++ z ++ t) v1 _).mpr ⟨y, z ++ t, by simp, hA, rfl⟩
      exact ⟨v1, v2, (), _, rfl, h1, (hb.at (pre := pre ++ y) (rest := z ++ t) (by simp) _ _).mpr ⟨z, t, rfl, hB, by simp⟩⟩
  · intro pre rest
    rcases ha.both (pre := pre) (rest := rest) rfl with ⟨y, t, v, rfl, hA, h1⟩ | ⟨e, o', h1⟩
    · rcases hb.both (d := pre ++ (y ++ t)) (pre := pre ++ y) (rest := t) (by simp) with ⟨z, t, s, _, _, h2⟩ | ⟨e, o', h2⟩
      · exact .inl ⟨_, _, ((hc pre _).1 _ _ _).mpr ⟨_, _, _, _, rfl, h1, h2⟩⟩
      · exact .inr ⟨_, _, ((hc pre _).2.1 _ _ _).mpr ⟨rfl, .inr ⟨_, _, _, _, h1, h2⟩⟩⟩
    · exact .inr ⟨_, _, ((hc pre _).2.1 _ _ _).mpr ⟨rfl, .inl ⟨_, h1⟩⟩⟩

theorem reads_enclose {a b c : Pat Char (List Char)} {A B C} (ha : Passes G a A) (hb : Reads G b B) (hz : Passes G c C) :
    Reads G (.enclose a b c) fun x t v => ∃ y z w, x = y ++ (z ++ w) ∧ A y (z ++ (w ++ t)) ∧ B z (w ++ t) v ∧ C w t := by
  have hc := fun pre rest => C08_enclose_construct (G := G) (H := extractH (σ := Unit)) (pol := none)
    (d := pre ++ rest) a b c () (blen pre)
  constructor
  · intro pre rest v o'
    rw [(hc pre rest).1]
    constructor
    · rintro ⟨s, o1, o2, s2, h1, h2, h3⟩
      obtain ⟨y, t1, rfl, hA, rfl⟩ := (ha.ok _ _ _).mp ⟨s, h1⟩
      obtain ⟨z, t2, rfl, hB, rfl⟩ := (hb.at (pre := pre ++ y) (rest := t1) (by simp) _ _).mp h2
      obtain ⟨w, t, rfl, hC, rfl⟩ := (hz.at (pre := pre ++ y ++ z) (rest := t2) (by simp) _).mp ⟨_, h3⟩
      exact ⟨y ++ (z ++ w), t, by simp, ⟨y, z, w, rfl, hA, hB, hC⟩, by simp⟩
    · rintro ⟨x, t, rfl, ⟨y, z, w, rfl, hA, hB, hC⟩, rfl⟩
      obtain ⟨s, h1⟩ := (ha.ok pre (y ++ (z ++ w) ++ t) _).mpr ⟨y, z ++ (w ++ t), by simp, hA, rfl⟩
      have h2 := (hb.at (d := pre ++ (y ++ (z ++ w) ++ t)) (pre := pre ++ y) (rest := z ++ (w ++ t)) (by simp) v _).mpr
        ⟨z, w ++ t, rfl, hB, rfl⟩
      obtain ⟨s2, h3⟩ := (hz.at (d := pre ++ (y ++ (z ++ w) ++ t)) (pre := pre ++ y ++ z) (rest := w ++ t) (by simp) _).mpr
        ⟨w, t, rfl, hC, rfl⟩
      exact ⟨s, _, _, s2, h1, h2, by simpa using h3⟩
  · intro pre rest
    rcases ha.both (pre := pre) (rest := rest) rfl with ⟨y, t, s, rfl, hA, h1⟩ | ⟨e, o', h1⟩
    · rcases hb.both (d := pre ++ (y ++ t)) (pre := pre ++ y) (rest := t) (by simp) with ⟨z, t, v, rfl, _, h2⟩ | ⟨e, o', h2⟩
      · rcases hz.both (d := pre ++ (y ++ (z ++ t))) (pre := pre ++ y ++ z) (rest := t) (by simp) with ⟨w, t, v, _, _, h3⟩ | ⟨e, o', h3⟩
        · exact .inl ⟨_, _, ((hc pre _).1 _ _ _).mpr ⟨_, _, _, _, h1, h2, h3⟩⟩
        · exact .inr ⟨_, _, ((hc pre _).2 _ _ _).mpr ⟨rfl, .inr (.inr ⟨_, _, _, _, _, h1, h2, h3⟩)⟩⟩
      · exact .inr ⟨_, _, ((hc pre _).2 _ _ _).mpr ⟨rfl, .inr (.inl ⟨_, _, _, h1, h2⟩)⟩⟩
    · exact .inr ⟨_, _, ((hc pre _).2 _ _ _).mpr ⟨rfl, .inl ⟨rfl, _, h1⟩⟩⟩

theorem reads_sepOnce {a b c : Pat Char (List Char)} {A B C} (ha : Reads G a A) (hb : Passes G b B) (hz : Reads G c C) :
    Reads G (.sepOnce a b c) fun x t v => ∃ y z w v1 v2, x = y ++ (z ++ w) ∧ v = .pair v1 v2 ∧ A y (z ++ (w ++ t)) v1 ∧
      B z (w ++ t) ∧ C w t v2 := by
  have hc := fun pre rest => C08_sepOnce_construct (G := G) (H := extractH (σ := Unit)) (pol := none)
    (d := pre ++ rest) a b c () (blen pre)
  constructor
  · intro pre rest v o'
    rw [(hc pre rest).1]
    constructor
    · rintro ⟨v1, st, o1, s, o2, v2, rfl, h1, h2, h3⟩
      obtain ⟨y, t1, rfl, hA, rfl⟩ := (ha.ok _ _ _ _).mp h1
      obtain ⟨z, t2, rfl, hB, rfl⟩ := (hb.at (pre := pre ++ y) (rest := t1) (by simp) _).mp ⟨_, h2⟩
      obtain ⟨w, t, rfl, hC, rfl⟩ := (hz.at (pre := pre ++ y ++ z) (rest := t2) (by simp) _ _).mp h3
      exact ⟨y ++ (z ++ w), t, by simp, ⟨y, z, w, v1, v2, rfl, rfl, hA, hB, hC⟩, by simp⟩
    · rintro ⟨x, t, rfl, ⟨y, z, w, v1, v2, rfl, rfl, hA, hB, hC⟩, rfl⟩
      have h1 := (ha.ok pre (y ++ (z ++ w) ++ t) v1 _).mpr ⟨y, z ++ (w ++ t), by simp, hA, rfl⟩
      obtain ⟨s, h2⟩ := (hb.at (d := pre ++ (y ++ (z ++ w) ++ t)) (pre := pre ++ y) (rest := z ++ (w ++ t)) (by simp) _).mpr
        ⟨z, w ++ t, rfl, hB, rfl⟩
      have h3 := (hz.at (d := pre ++ (y ++ (z ++ w) ++ t)) (pre := pre ++ y ++ z) (rest := w ++ t) (by simp) v2 _).mpr
        ⟨w, t, rfl, hC, rfl⟩
      exact ⟨v1, (), _, s, _, v2, rfl, h1, h2, by simpa using h3⟩
  · intro pre rest
    rcases ha.both (pre := pre) (rest := rest) rfl with ⟨y, t, v, rfl, hA, h1⟩ | ⟨e, o', h1⟩
    · rcases hb.both (d := pre ++ (y ++ t)) (pre := pre ++ y) (rest := t) (by simp) with ⟨z, t, v, rfl, _, h2⟩ | ⟨e, o', h2⟩
      · rcases hz.both (d := pre ++ (y ++ (z ++ t))) (pre := pre ++ y ++ z) (rest := t) (by simp) with ⟨w, t, v, _, _, h3⟩ | ⟨e, o', h3⟩
        · exact .inl ⟨_, _, ((hc pre _).1 _ _ _).mpr ⟨_, _, _, _, _, _, rfl, h1, h2, h3⟩⟩
        · exact .inr ⟨_, _, ((hc pre _).2 _ _ _).mpr ⟨rfl, .inr (.inr ⟨_, _, _, _, _, _, h1, h2, h3⟩)⟩⟩
      · exact .inr ⟨_, _, ((hc pre _).2 _ _ _).mpr ⟨rfl, .inr (.inl ⟨_, _, _, h1, h2⟩)⟩⟩
    · exact .inr ⟨_, _, ((hc pre _).2 _ _ _).mpr ⟨rfl, .inl ⟨_, h1⟩⟩⟩

/-- Alternatives that exclude each other. -/
theorem reads_or {a b : Pat Char (List Char)} {A B} (ha : Reads G a A) (hb : Reads G b B)
    (hx : ∀ y t v y' t' v', y ++ t = y' ++ t' → A y t v → B y' t' v' → False) :
    Reads G (.or a b) fun x t v => A x t v ∨ B x t v := by
  have hc := fun pre rest => C06_or_construct (G := G) (H := extractH (σ := Unit)) (pol := none)
    (d := pre ++ rest) a b () (blen pre)
  constructor
  · intro pre rest v o'
    rw [(hc pre rest).1]
    constructor
    · rintro (h | ⟨e, st, o1, _, h⟩)
      · obtain ⟨y, t, rfl, hA, rfl⟩ := (ha.ok _ _ _ _).mp h
        exact ⟨y, t, rfl, .inl hA, rfl⟩
      · obtain ⟨y, t, rfl, hB, rfl⟩ := (hb.ok _ _ _ _).mp h
        exact ⟨y, t, rfl, .inr hB, rfl⟩
    · rintro ⟨x, t, rfl, h | h, rfl⟩
      · exact .inl ((ha.ok pre (x ++ t) v _).mpr ⟨x, t, rfl, h, rfl⟩)
      · rcases ha.both (pre := pre) (rest := x ++ t) rfl with ⟨y, t', v', e, hA, _⟩ | ⟨e, o', h1⟩
        · exact (hx _ _ _ _ _ _ e.symm hA h).elim
        · exact .inr ⟨e, (), o', h1, (hb.ok pre (x ++ t) v _).mpr ⟨x, t, rfl, h, rfl⟩⟩
  · intro pre rest
    rcases ha.total pre rest with ⟨v, o', h⟩ | ⟨e, o', h⟩
    · exact .inl ⟨_, _, ((hc pre rest).1 _ _ _).mpr (.inl h)⟩
    · rcases hb.total pre rest with ⟨v, o1, h1⟩ | ⟨e1, o1, h1⟩
      · exact .inl ⟨_, _, ((hc pre rest).1 _ _ _).mpr (.inr ⟨_, _, _, h, h1⟩)⟩
      · exact .inr ⟨_, _, ((hc pre rest).2.1 _ _ _).mpr ⟨rfl, _, _, _, _, h, h1⟩⟩

/-- What is built is matched. -/
theorem passes_of_reads {p : Pat Char (List Char)} {P} (h : Reads G p P) (hp : CAll G (Agree G False) p)
    (hs : All G (Safe G none) p) (hb : All G (Bounded G none) p) : Passes G p fun a t => ∃ v, P a t v := by
  have hc := fun pre rest => C19_extract_agrees_with_match (d := pre ++ rest) p hp hs hb () (blen pre) ⟨pre, rest, rfl, rfl⟩
  constructor
  · intro pre rest o'
    rw [← (hc pre rest).1]
    constructor
    · rintro ⟨v, st, h'⟩
      obtain ⟨a, t, e, hp, ho⟩ := (h.ok _ _ _ _).mp h'
      exact ⟨a, t, e, ⟨v, hp⟩, ho⟩
    · rintro ⟨a, t, e, ⟨v, hp⟩, ho⟩
      exact ⟨v, (), (h.ok _ _ _ _).mpr ⟨a, t, e, hp, ho⟩⟩
  · intro pre rest
    rcases h.total pre rest with ⟨v, o', h'⟩ | ⟨e, o', h'⟩
    · obtain ⟨s, hs⟩ := ((hc pre rest).1 o').mp ⟨v, (), h'⟩
      exact .inl ⟨s, o', hs⟩
    · exact .inr ⟨e, o', ((hc pre rest).2.1 e o').mp ⟨(), h'⟩⟩

end Neure.Chat
