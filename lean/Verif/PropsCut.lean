import Verif.PropsFind
/-!
# C100: cutting a text at the matches of a search

`find_all` returns the matched texts.  What is between them has no name in the API; a user
who splits a text at separators, replaces what is found or colours it counts on the two
together being the text.
-/

namespace Neure

set_option linter.unusedSectionVars false
set_option linter.unusedSimpArgs false

open Demo

variable {ι β : Type} [Item ι] {G : Rules ι β} {d : List ι} {p : Pat ι β}

/-! ## Specification -/

/-- `Cut G p before text ps tail`: `text`, which stands after `before`, is cut into gaps, each
followed by a match (`ps`), and a last gap `tail`.  Every match is a non-empty match of `p` where it stands
(in the whole text), and `p` has no non-empty match that begins in a gap. -/
inductive Cut (G : Rules ι β) (p : Pat ι β) : List ι → List ι → List (List ι × List ι) → List ι → Prop
  | last {before tail : List ι} :
      (∀ j, blen before ≤ j → j < blen (before ++ tail) → NoHit G none (before ++ tail) p j) →
      Cut G p before tail [] tail
  | piece {before gap hit rest tail : List ι} {ps : List (List ι × List ι)} : hit ≠ [] →
      (∀ j, blen before ≤ j → j < blen (before ++ gap) →
        NoHit G none (before ++ gap ++ hit ++ rest) p j) →
      Runs G none (before ++ gap ++ hit ++ rest) p (blen (before ++ gap))
        (.ok ⟨blen (before ++ gap), blen hit⟩ (blen (before ++ gap ++ hit))) →
      Cut G p (before ++ gap ++ hit) rest ps tail →
      Cut G p before (gap ++ hit ++ rest) ((gap, hit) :: ps) tail

/-- The pieces put together again, with `f` in the place of every match. -/
def glue (f : List ι → List ι) (ps : List (List ι × List ι)) (tail : List ι) : List ι :=
  ps.flatMap (fun x => x.1 ++ f x.2) ++ tail

/-! ## Lemmas -/

theorem blen_pos_of_ne_nil {l : List ι} (h : l ≠ []) : 0 < blen l := by
  cases l with
  | nil => exact absurd rfl h
  | cons x l => have := Item.size_pos x; simp only [blen]; omega

/-- Of two beginnings of a text the one that is not longer is the beginning of the other. -/
theorem beginning_of {a b x y : List ι} (h : a ++ x = b ++ y) (hl : blen a ≤ blen b) :
    ∃ g, b = a ++ g ∧ x = g ++ y := by
  rcases List.append_eq_append_iff.mp h with ⟨g, h1, h2⟩ | ⟨g, h1, h2⟩
  · exact ⟨g, h1, h2⟩
  · have : g = [] := by
      cases g with
      | nil => rfl
      | cons z g =>
        have := blen_pos_of_ne_nil (l := z :: g) (by simp)
        rw [h1, blen_append] at hl; omega
    subst this
    exact ⟨[], by simpa using h1.symm, by simpa using h2.symm⟩

theorem findsAll_nil {x : Extract ι α} {o e : Nat} :
    FindsAll G none d p x o (.ok [] e) ↔ Finds G none d p x o (.ok none e) :=
  drain_iff (nx := find G none d p x) (fun o => findLoop_mono (fun o => tryMat_mono G none d p o) o) o [] e

theorem findsAll_cons {x : Extract ι α} {o e : Nat} {a : α} {l : List α} :
    FindsAll G none d p x o (.ok (a :: l) e) ↔
      ∃ o1, Finds G none d p x o (.ok (some a) o1) ∧ FindsAll G none d p x o1 (.ok l e) :=
  drain_iff (nx := find G none d p x) (fun o => findLoop_mono (fun o => tryMat_mono G none d p o) o) o (a :: l) e

theorem cut_glue {before text tail : List ι} {ps : List (List ι × List ι)} (h : Cut G p before text ps tail) :
    glue id ps tail = text := by
  induction h with
  | last _ => simp [glue]
  | piece _ _ _ _ ih =>
    simp only [glue, List.flatMap_cons, id, List.append_assoc] at ih ⊢
    rw [ih]

theorem zip_parts {α γ : Type} : ∀ ps : List (α × γ), (ps.map (·.1)).zip (ps.map (·.2)) = ps
  | [] => rfl
  | x :: ps => by simp only [List.map_cons, List.zip_cons_cons, zip_parts ps]

theorem seqs_nil {x : Extract ι α} {o e : Nat} :
    MatchSeqs G none d p x o (.ok [] e) ↔ SeqNext G none d p x o (.ok none e) :=
  drain_iff (nx := seqNext G none d p x) (fun o => findLoop_mono (fun o => tryMat_mono G none d p o) o) o [] e

theorem seqs_cons {x : Extract ι α} {o e : Nat} {a : α} {l : List α} :
    MatchSeqs G none d p x o (.ok (a :: l) e) ↔
      ∃ o1, SeqNext G none d p x o (.ok (some a) o1) ∧ MatchSeqs G none d p x o1 (.ok l e) :=
  drain_iff (nx := seqNext G none d p x) (fun o => findLoop_mono (fun o => tryMat_mono G none d p o) o) o (a :: l) e

/-! ## The property -/

/-- **C100.** What `find_all(p)` returns on a text are the matches of the text's cut, in order, and
the position is left at its end: the text has a cut whenever the search ends, and the other way
round. -/
theorem C100_find_all_cuts (hp : All G Tidy p) (hb : All G (Bounded G none) p) (ha : All G Aligned p)
    (before text : List ι) (l : List (List ι)) (e : Nat) :
    FindsAll G none (before ++ text) p .slice (blen before) (.ok l e) ↔
      e = blen (before ++ text) ∧ ∃ ps tail, Cut G p before text ps tail ∧ l = ps.map (·.2) := by
  have hx := fun d => extractable_slice (d := d) hb ha
  induction l generalizing before text with
  | nil =>
    rw [findsAll_nil, (C28_find_leftmost hp (hx _) _ _).2]
    constructor
    · rintro ⟨h1, h2⟩
      refine ⟨by rw [blen_append] at h2 ⊢; omega, [], text, .last h1, rfl⟩
    · rintro ⟨h1, ps, tail, hc, hl⟩
      cases hc with
      | last h => exact ⟨h, by rw [blen_append] at h1 ⊢; omega⟩
      | piece => simp at hl
  | cons t l ih =>
    rw [findsAll_cons]
    constructor
    · rintro ⟨o1, h1, h2⟩
      obtain ⟨pre, post, hd, ht, ho, rfl, hf⟩ := C28_find_text hp hb ha _ _ _ h1
      obtain ⟨gap, rfl, hg⟩ := beginning_of (a := before) (b := pre) (x := text) (y := t ++ post)
        (by rw [hd]; simp) ho
      rw [← blen_append, hd] at h2
      obtain ⟨he, ps, tail, hc, hl⟩ := (ih (before ++ gap ++ t) post).mp h2
      rw [hd] at hf
      have hg' : text = gap ++ t ++ post := by rw [hg]; simp
      refine ⟨by rw [hd]; exact he, (gap, t) :: ps, tail, ?_, by simp [hl]⟩
      rw [hg']
      refine .piece ht hf.2.2.1 ?_ hc
      have := hf.2.2.2.1
      rw [← blen_append] at this
      exact this
    · rintro ⟨rfl, ps, tail, hc, hl⟩
      cases hc with
      | last => simp at hl
      | @piece _ gap hit rest _ ps hne hno hr hc =>
        simp only [List.map_cons, List.cons.injEq] at hl
        obtain ⟨rfl, rfl⟩ := hl
        have hpos := blen_pos_of_ne_nil hne
        have hd : before ++ (gap ++ t ++ rest) = before ++ gap ++ t ++ rest := by simp
        rw [hd] at ih ⊢
        refine ⟨blen (before ++ gap ++ t), ?_, ?_⟩
        · refine ((C28_find_leftmost hp (hx _) _ _).1 t).mpr ⟨blen (before ++ gap), _,
            ⟨by rw [blen_append]; omega, by simp only [blen_append]; omega, hno, hr, by simpa using Nat.ne_of_gt hpos⟩, ?_⟩
          exact origSub_ok.mpr ⟨before ++ gap, rest, by simp, rfl, rfl⟩
        · exact (ih (before ++ gap ++ t) rest).mpr ⟨rfl, ps, _, hc, rfl⟩

/-- **C100.** The pieces between the matches and the matches, put together in order, are the text:
nothing is lost, doubled or moved.  There is only one way to cut. -/
theorem C100_nothing_lost {before text tail tail' : List ι} {ps ps' : List (List ι × List ι)}
    (h : Cut G p before text ps tail) :
    glue id ps tail = text ∧ (Cut G p before text ps' tail' → ps' = ps ∧ tail' = tail) := by
  refine ⟨cut_glue h, ?_⟩
  -- where there is a match no gap goes on, and where there is none no match begins
  have clash : ∀ {d : List ι} {j : Nat} {s : Span} {o : Nat}, NoHit G none d p j →
      Runs G none d p j (.ok s o) → s.len ≠ 0 → False := fun h1 h2 h3 => noHit_not_hit h1 ⟨h2, h3⟩
  induction h generalizing ps' tail' with
  | @last before tail hno =>
    intro h'
    generalize ht : tail = text at h'
    cases h' with
    | last _ => exact ⟨rfl, rfl⟩
    | @piece _ gap hit rest _ ps hne _ hr _ =>
      have hpos := blen_pos_of_ne_nil hne
      subst ht
      have hd : before ++ (gap ++ hit ++ rest) = before ++ gap ++ hit ++ rest := by simp
      rw [hd] at hno
      exact (clash (hno (blen (before ++ gap)) (by rw [blen_append]; omega)
        (by simp only [blen_append]; omega)) hr (by simpa using Nat.ne_of_gt hpos)).elim
  | @piece before gap hit rest tail ps hne hno hr hc ih =>
    intro h'
    have hpos := blen_pos_of_ne_nil hne
    have hd : before ++ (gap ++ hit ++ rest) = before ++ gap ++ hit ++ rest := by simp
    generalize ht : gap ++ hit ++ rest = text at h'
    cases h' with
    | last hno' =>
      rw [← ht, hd] at hno'
      exact (clash (hno' (blen (before ++ gap)) (by rw [blen_append]; omega)
        (by simp only [blen_append]; omega)) hr (by simpa using Nat.ne_of_gt hpos)).elim
    | @piece _ gap' hit' rest' _ ps'' hne' hno' hr' hc' =>
      have hpos' := blen_pos_of_ne_nil hne'
      have hd' : before ++ gap' ++ hit' ++ rest' = before ++ gap ++ hit ++ rest := by
        rw [← hd, ht]; simp
      rw [hd'] at hno' hr'
      have hlen : blen gap = blen gap' := by
        rcases Nat.lt_trichotomy (blen gap) (blen gap') with h | h | h
        · exact (clash (hno' (blen (before ++ gap)) (by rw [blen_append]; omega)
            (by simp only [blen_append]; omega)) hr (by simpa using Nat.ne_of_gt hpos)).elim
        · exact h
        · exact (clash (hno (blen (before ++ gap')) (by rw [blen_append]; omega)
            (by simp only [blen_append]; omega)) hr' (by simpa using Nat.ne_of_gt hpos')).elim
      have eqOf : ∀ {a b x y : List ι}, a ++ x = b ++ y → blen a = blen b → a = b ∧ x = y := by
        intro a b x y h hl
        obtain ⟨g, h1, h2⟩ := beginning_of h (by omega)
        have : g = [] := by
          cases g with
          | nil => rfl
          | cons z g =>
            have := blen_pos_of_ne_nil (l := z :: g) (by simp)
            rw [h1, blen_append] at hl; omega
        subst this
        exact ⟨by simpa using h1.symm, by simpa using h2⟩
      obtain ⟨rfl, h2⟩ := eqOf (a := gap) (b := gap') (x := hit ++ rest) (y := hit' ++ rest')
        (by simpa using ht) hlen
      have hs := hr.unique hr'
      simp only [Res.ok.injEq, Span.mk.injEq, true_and] at hs
      obtain ⟨rfl, rfl⟩ := eqOf h2 hs.1
      obtain ⟨rfl, rfl⟩ := ih hc'
      exact ⟨rfl, rfl⟩

/-- **C100.** So, from the start of a text: whenever `find_all(p)` ends with the texts `l`, there are
gaps that together with `l` are the text; and where the search cannot run for ever or panic, there
are such `l` and gaps. -/
theorem C100_split (hp : All G Tidy p) (hb : All G (Bounded G none) p) (ha : All G Aligned p)
    (text : List ι) :
    (∀ l e, FindsAll G none text p .slice 0 (.ok l e) →
      e = blen text ∧ ∃ (gaps : List (List ι)) (tail : List ι), gaps.length = l.length ∧ glue id (gaps.zip l) tail = text ∧
        Cut G p [] text (gaps.zip l) tail) ∧
    ((∀ j, j < blen text → Matches G none text p j ∨ Fails G none text p j) →
      ∃ l e, FindsAll G none text p .slice 0 (.ok l e)) := by
  constructor
  · intro l e h
    obtain ⟨he, ps, tail, hc, rfl⟩ := (C100_find_all_cuts hp hb ha [] text l e).mp h
    have hz := zip_parts ps
    exact ⟨he, ps.map (·.1), tail, by simp, by rw [hz]; exact cut_glue hc, by rw [hz]; exact hc⟩
  · intro ht
    obtain ⟨l, e, h, -⟩ := C29_find_all_ends hp (extractable_slice (d := text) hb ha) 0 (fun j _ hj => ht j hj)
    exact ⟨l, e, h⟩

/-- Digits cut out of a text with a two-byte character in it. -/
example : FindsAll (β := Nat) G0 none ['é', '1', '2', 'b', '3', 'c'] (.many1 (.mem ['1', '2', '3']) .empty) .slice 0
    (.ok [['1', '2'], ['3']] 7) ∧
    glue id [(['é'], ['1', '2']), (['b'], ['3'])] ['c'] = ['é', '1', '2', 'b', '3', 'c'] :=
  ⟨⟨9, by decide⟩, by decide⟩

example : ∃ (gaps : List (List Char)) (tail : List Char), gaps.length = 2 ∧
    glue id (gaps.zip [['1', '2'], ['3']]) tail = ['é', '1', '2', 'b', '3', 'c'] := by
  have ha : ∀ P : Pat Char Nat → Prop, P (.many1 (.mem ['1', '2', '3']) .empty) → All G0 P (.many1 (.mem ['1', '2', '3']) .empty) :=
    fun P h => All.intro h fun q hq => absurd hq id
  obtain ⟨-, gaps, tail, h1, h2, -⟩ := (C100_split (G := G0) (ha _ trivial) (ha _ trivial) (ha _ trivial)
    ['é', '1', '2', 'b', '3', 'c']).1
    [['1', '2'], ['3']] 7 ⟨9, by decide⟩
  exact ⟨gaps, tail, h1, h2⟩

/-- **C100.** `match_seq(p)` returns texts that, one after the other, are the beginning of the text; each of them
is a non-empty match of `p` where it stands, and `p` has none at the place where they end. -/
theorem C100_match_seq_tokens (hp : All G Tidy p) (hb : All G (Bounded G none) p) (ha : All G Aligned p)
    (before text : List ι) (l : List (List ι)) (e : Nat)
    (h : MatchSeqs G none (before ++ text) p .slice (blen before) (.ok l e)) :
    e = blen (before ++ text) ∧ ∃ rest, text = l.flatten ++ rest ∧
      (rest ≠ [] → NoHit G none (before ++ text) p (blen (before ++ l.flatten))) ∧
      ∀ l1 t l2, l = l1 ++ t :: l2 → t ≠ [] ∧
        Runs G none (before ++ text) p (blen (before ++ l1.flatten))
          (.ok ⟨blen (before ++ l1.flatten), blen t⟩ (blen (before ++ l1.flatten ++ t))) := by
  have hx := fun d => extractable_slice (d := d) hb ha
  induction l generalizing before text with
  | nil =>
    rw [seqs_nil, (seqNext_iff hp (hx _) _ _).2] at h
    obtain ⟨h1, h2⟩ := h
    refine ⟨by rw [blen_append] at h2 ⊢; omega, text, by simp, fun hr => ?_, fun l1 t l2 hl => by simp at hl⟩
    have := blen_pos_of_ne_nil hr
    simpa using h1 (by rw [blen_append]; omega)
  | cons t l ih =>
    rw [seqs_cons] at h
    obtain ⟨o1, h1, h2⟩ := h
    obtain ⟨ho, s, ⟨hr, hl⟩, hs⟩ := ((seqNext_iff hp (hx _) _ _).1 t).mp h1
    obtain ⟨n, hn⟩ := id hr
    obtain ⟨hb1, hb2⟩ := exact_inv G n _ p _ hp _ hn
    obtain ⟨pre, post, hd, hp1, hp2⟩ := origSub_ok.mp hs
    obtain ⟨gap, rfl, hg⟩ := beginning_of (a := before) (b := pre) (x := text) (y := t ++ post)
      (by rw [hd]; simp) (by omega)
    have hgap : gap = [] := by
      cases gap with
      | nil => rfl
      | cons z g =>
        have := blen_pos_of_ne_nil (l := z :: g) (by simp)
        rw [blen_append] at hp1; omega
    subst hgap
    simp only [List.nil_append] at hg
    rw [List.append_nil] at hp1
    subst hg
    have hne : t ≠ [] := by rintro rfl; simp [blen] at hp2; omega
    have hd' : before ++ (t ++ post) = before ++ t ++ post := by simp
    have ho1 : o1 = blen (before ++ t) := by rw [blen_append]; omega
    have hs' : s = ⟨blen before, blen t⟩ := by cases s; simp only [Span.mk.injEq] at hb1 hp2 ⊢; omega
    rw [ho1, hd'] at h2
    obtain ⟨he, rest, rfl, hno, hall⟩ := ih (before ++ t) post h2
    refine ⟨by rw [hd']; exact he, rest, by simp, fun hr => by simpa using hno hr, fun l1 u l2 hl => ?_⟩
    cases l1 with
    | nil =>
      simp only [List.nil_append, List.cons.injEq] at hl
      obtain ⟨rfl, rfl⟩ := hl
      rw [ho1, hs'] at hr
      exact ⟨hne, by simpa using hr⟩
    | cons w l1 =>
      simp only [List.cons_append, List.cons.injEq] at hl
      obtain ⟨rfl, hl⟩ := hl
      obtain ⟨h3, h4⟩ := hall l1 u l2 hl
      exact ⟨h3, by simpa using h4⟩

example : MatchSeqs (β := Nat) G0 none ['a', 'b', 'é', '!'] (.once (.always) .empty) .slice 0
    (.ok [['a'], ['b'], ['é'], ['!']] 5) := ⟨9, by decide⟩

example : ∃ rest, ['1', '2', '+', '3'] = [['1'], ['2']].flatten ++ rest ∧
    (rest ≠ [] → NoHit (β := Nat) G0 none ['1', '2', '+', '3'] (.once (.mem ['1', '2', '3']) .empty) 2) := by
  have ha : ∀ P : Pat Char Nat → Prop, P (.once (.mem ['1', '2', '3']) .empty) → All G0 P (.once (.mem ['1', '2', '3']) .empty) :=
    fun P h => All.intro h fun q hq => absurd hq id
  obtain ⟨-, rest, h1, h2, -⟩ := C100_match_seq_tokens (G := G0) (ha _ trivial) (ha _ trivial) (ha _ trivial) []
    ['1', '2', '+', '3'] [['1'], ['2']] 4 ⟨9, by decide⟩
  exact ⟨rest, h1, h2⟩

end Neure
