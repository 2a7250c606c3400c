import Verif.PropsCut
import Verif.PropsComb
import Verif.PropsUnit
import Verif.PropsRewriteUnit
import Verif.PropsFindUtf8Text
/-!
# C103: searching for a literal, an item or a run of items is the plain scan of the text

`find_all` with a literal pattern is what `str::match_indices` does: it goes through the text from left to right,
takes an occurrence where one stands and goes on after it.  `find_all` with one item is the
filtered text, and with one or more items it is the list of the longest runs.
-/

namespace Neure

set_option linter.unusedSectionVars false
set_option linter.unusedSimpArgs false

open Demo

variable {ι β : Type} [Item ι] {G : Rules ι β} {d : List ι} {p : Pat ι β} {α : Type}

namespace Sweep

/-! ## Specification -/

/-- Go through a text that starts at position `o`.  `wide rest` says how many items an occurrence
at the beginning of `rest` has, `0` if there is none.  The first argument counts the items of an
occurrence that are still to be passed over.  Gives where each occurrence stands and its text. -/
def sweep (wide : List ι → Nat) : Nat → Nat → List ι → List (Nat × List ι)
  | _, _, [] => []
  | k + 1, o, x :: t => sweep wide k (o + Item.size x) t
  | 0, o, x :: t =>
    match wide (x :: t) with
    | 0 => sweep wide 0 (o + Item.size x) t
    | k + 1 => (o, (x :: t).take (k + 1)) :: sweep wide k (o + Item.size x) t

/-- The occurrences of the word `w` in a text at `o`, from left to right, no two overlapping. -/
def occurrences (w : List ι) (o : Nat) (t : List ι) : List (Nat × List ι) :=
  sweep (fun rest => if w.isPrefixOf rest then w.length else 0) 0 o t

/-- The items of a text at `o` for which `f` holds. -/
def picked (f : ι → Bool) : Nat → List ι → List (Nat × List ι)
  | _, [] => []
  | o, x :: t => if f x then (o, [x]) :: picked f (o + Item.size x) t else picked f (o + Item.size x) t

/-- The longest runs of items for which `f` holds, in a text at `o`. -/
def stretches (f : ι → Bool) (o : Nat) (t : List ι) : List (Nat × List ι) :=
  sweep (fun rest => (rest.takeWhile f).length) 0 o t

/-! ## Lemmas -/

theorem sweep_pass (wide : List ι → Nat) (k o : Nat) (t : List ι) (h : k ≤ t.length) :
    sweep wide k o t = sweep wide 0 (o + blen (t.take k)) (t.drop k) := by
  induction k generalizing o t with
  | zero => simp
  | succ k ih =>
    cases t with
    | nil => simp at h
    | cons x t =>
      simp only [sweep, List.take_succ_cons, List.drop_succ_cons, blen_cons]
      rw [ih _ _ (by simpa using h), Nat.add_assoc]

theorem inside {pre t : List ι} {x : ι} {j : Nat} (h1 : blen pre < j) (h2 : j < blen pre + Item.size x) :
    ¬ Valid (pre ++ x :: t) j := by
  rintro ⟨a, b, hd, rfl⟩
  obtain ⟨g, rfl, hg⟩ := beginning_of hd (by omega)
  cases g with
  | nil => simp at h1
  | cons y g =>
    simp only [List.cons_append, List.cons.injEq] at hg
    obtain ⟨rfl, -⟩ := hg
    simp only [blen_append, blen_cons] at h2
    omega

theorem findsAll_unique {x : Extract ι α} {o : Nat} {r r' : Res (List α)}
    (h : FindsAll G none d p x o r) (h' : FindsAll G none d p x o r') : r = r' := by
  obtain ⟨n, h⟩ := h
  obtain ⟨m, h'⟩ := h'
  have hm : ∀ o, Mono fun n => find G none d p x n o :=
    fun o => findLoop_mono (fun o => tryMat_mono G none d p o) o
  have a := FindUtf8.drain_le hm n (n + m) n (n + m) o r (by omega) (by omega) h
  have b := FindUtf8.drain_le hm m (n + m) m (n + m) o r' (by omega) (by omega) h'
  rw [a] at b
  exact Option.some.inj b

/-- Positions without a match may be passed over. -/
theorem findsAll_skip {x : Extract ι α} (hp : All G Tidy p) (hx : Extractable G d p x) {o o1 e : Nat} {l : List α}
    (h1 : o ≤ o1) (h2 : o1 ≤ blen d) (hn : ∀ j, o ≤ j → j < o1 → NoHit G none d p j)
    (h : FindsAll G none d p x o1 (.ok l e)) : FindsAll G none d p x o (.ok l e) := by
  cases l with
  | nil =>
    rw [findsAll_nil, (C28_find_leftmost hp hx _ _).2] at h ⊢
    refine ⟨fun j hj hj' => ?_, by rw [h.2]; omega⟩
    by_cases hjo : j < o1
    · exact hn j hj hjo
    · exact h.1 j (by omega) hj'
  | cons a l =>
    rw [findsAll_cons] at h ⊢
    obtain ⟨o2, hf, hl⟩ := h
    refine ⟨o2, ?_, hl⟩
    rw [(C28_find_leftmost hp hx _ _).1] at hf ⊢
    obtain ⟨k, s, ⟨g1, g2, g3, g4⟩, ha⟩ := hf
    refine ⟨k, s, ⟨by omega, g2, fun j hj hj' => ?_, g4⟩, ha⟩
    by_cases hjo : j < o1
    · exact hn j hj hjo
    · exact g3 j (by omega) hj'

/-- What a pattern does where an item begins and inside an item makes the search the sweep. -/
theorem findsAll_sweep {x : Extract ι α} {wide : List ι → Nat} {val : Nat × List ι → α} (hp : All G Tidy p)
    (hx : ∀ d, Extractable G d p x)
    (hv : ∀ pre t post, x.invoke (pre ++ t ++ post) ⟨blen pre, blen t⟩ = .ok (val (blen pre, t)))
    (hw : ∀ t, wide t ≤ t.length)
    (h0 : ∀ pre t, wide t = 0 → NoHit G none (pre ++ t) p (blen pre))
    (h1 : ∀ pre t, wide t ≠ 0 → Runs G none (pre ++ t) p (blen pre)
      (.ok ⟨blen pre, blen (t.take (wide t))⟩ (blen pre + blen (t.take (wide t)))))
    (hi : ∀ d o, o < blen d → ¬ Valid d o → NoHit G none d p o) (n : Nat) (pre t : List ι) (hn : t.length ≤ n) :
    FindsAll G none (pre ++ t) p x (blen pre) (.ok ((sweep wide 0 (blen pre) t).map val) (blen (pre ++ t))) := by
  induction n generalizing pre t with
  | zero =>
    have : t = [] := List.eq_nil_of_length_eq_zero (by omega)
    subst this
    simp only [sweep, List.map_nil]
    rw [findsAll_nil, (C28_find_leftmost hp (hx _) _ _).2]
    refine ⟨fun j hj hj' => ?_, ?_⟩
    · simp at hj'; omega
    · simp
  | succ n ih =>
    cases t with
    | nil => exact ih pre [] (by simp)
    | cons y t =>
      simp only [List.length_cons] at hn
      simp only [sweep]
      cases hk : wide (y :: t) with
      | zero =>
        have h := ih (pre ++ [y]) t (by omega)
        rw [List.append_assoc] at h
        simp only [List.cons_append, List.nil_append, blen_append, blen_cons, blen_nil, Nat.add_zero] at h
        simp only [blen_append, blen_cons]
        refine findsAll_skip hp (hx _) (Nat.le_add_right _ _) ?_ (fun j hj hj' => ?_) h
        · simp only [blen_append, blen_cons]; omega
        · by_cases hjo : j = blen pre
          · subst hjo; exact h0 pre _ hk
          · refine hi _ _ ?_ (inside (by omega) hj')
            simp only [blen_append, blen_cons]; omega
      | succ k =>
        have hkl : k + 1 ≤ (y :: t).length := hk ▸ hw (y :: t)
        have hkt : k ≤ t.length := by simpa using hkl
        have hr := h1 pre (y :: t) (by omega)
        rw [hk] at hr
        have hsplit : pre ++ (y :: t) = pre ++ (y :: t).take (k + 1) ++ (y :: t).drop (k + 1) := by
          rw [List.append_assoc, List.take_append_drop]
        have h := ih (pre ++ (y :: t).take (k + 1)) ((y :: t).drop (k + 1)) (by simp; omega)
        rw [← hsplit] at h
        dsimp only
        rw [List.map_cons, findsAll_cons]
        refine ⟨blen pre + blen ((y :: t).take (k + 1)), ?_, ?_⟩
        · rw [(C28_find_leftmost hp (hx _) _ _).1]
          have hpos : 0 < blen ((y :: t).take (k + 1)) := blen_pos_of_ne_nil (by simp)
          refine ⟨blen pre, _, ⟨Nat.le_refl _, ?_, fun j hj hj' => by omega, hr, by simp only; omega⟩, ?_⟩
          · have := Item.size_pos y
            simp only [blen_append, blen_cons]; omega
          · rw [hsplit]; exact hv _ _ _
        · rw [sweep_pass wide k _ t hkt]
          simpa only [blen_append, List.take_succ_cons, List.drop_succ_cons, blen_cons, Nat.add_assoc] using h

/-- Inside an item no literal, item or run begins. -/
theorem fails_inside {o : Nat} (hlt : o < blen d) (hv : ¬ Valid d o) :
    (∀ w, NoHit G none d (.lit w) o) ∧ (∀ u c, NoHit G none d (.once u c) o) ∧
      ∀ u c, NoHit G none d (.many1 u c) o := by
  have hd : dropB d o = none := by
    cases h : dropB d o with
    | none => rfl
    | some l => exact absurd (valid_iff_dropB.mpr ⟨l, h⟩) hv
  have hle : ¬ blen d < o := by omega
  have ha : origAt d o = .err .outOfBound := by simp [origAt, hle, hd]
  have hp : peek d o = .err .outOfBound := by simp [peek, ha]
  refine ⟨fun w => ?_, fun u c => ?_, fun u c => ?_⟩
  · have : ∃ e, litParse d w o = some (.err e o) := by
      unfold litParse remK
      rw [if_pos (by omega), ha]
      dsimp only
      split
      · exact ⟨_, rfl⟩
      · exact ⟨_, rfl⟩
    obtain ⟨e, h⟩ := this
    exact .inl ⟨e, o, runs_iff.mpr (by rw [matL_none, parseL_lit]; exact h)⟩
  · exact .inl ⟨.outOfBound, o, runs_iff.mpr (by rw [matL_none, parseL_once]; simp only [onceParse, hp, caseO])⟩
  · exact .inl ⟨.outOfBound, o, runs_iff.mpr (by rw [matL_none, parseL_many1]; simp only [many1Parse, hp, caseO])⟩

theorem lit_at (pre t w : List ι) :
    ((if w.isPrefixOf t then w.length else 0) = 0 → NoHit G none (pre ++ t) (.lit w) (blen pre)) ∧
    ((if w.isPrefixOf t then w.length else 0) ≠ 0 → Runs G none (pre ++ t) (.lit w) (blen pre)
      (.ok ⟨blen pre, blen (t.take (if w.isPrefixOf t then w.length else 0))⟩
        (blen pre + blen (t.take (if w.isPrefixOf t then w.length else 0))))) := by
  have hl := C12_literal (G := G) (pol := none) pre t w rfl
  by_cases h : w.isPrefixOf t = true
  · rw [if_pos h]
    obtain ⟨u, rfl⟩ := List.isPrefixOf_iff_prefix.mp h
    have hr : Runs G none (pre ++ (w ++ u)) (.lit w) (blen pre) (.ok ⟨blen pre, blen w⟩ (blen pre + blen w)) :=
      (hl _).mpr (.inl ⟨⟨u, rfl⟩, rfl⟩)
    refine ⟨fun h0 => .inr ⟨_, _, hr, ?_⟩, fun _ => by simpa using hr⟩
    rw [List.eq_nil_of_length_eq_zero h0]; rfl
  · rw [if_neg h]
    refine ⟨fun _ => .inl ⟨.literal, _, (hl _).mpr (.inr ⟨?_, rfl⟩)⟩, fun h0 => absurd rfl h0⟩
    rintro ⟨u, rfl⟩
    exact h (List.isPrefixOf_iff_prefix.mpr ⟨u, rfl⟩)

theorem many1_at (u : Neu ι) (pre t : List ι) :
    ((t.takeWhile u.isMatch).length = 0 → NoHit G none (pre ++ t) (.many1 u .empty) (blen pre)) ∧
    ((t.takeWhile u.isMatch).length ≠ 0 → Runs G none (pre ++ t) (.many1 u .empty) (blen pre)
      (.ok ⟨blen pre, blen (t.take (t.takeWhile u.isMatch).length)⟩
        (blen pre + blen (t.take (t.takeWhile u.isMatch).length)))) := by
  have hm := C23_many1_takeWhile (β := β) (G := G) (pol := none) u pre t rfl
  constructor
  · intro h
    exact .inl ⟨.many1, _, (hm _).mpr (by rw [if_pos (List.eq_nil_of_length_eq_zero h)])⟩
  · intro h
    have e : t.take (t.takeWhile u.isMatch).length = t.takeWhile u.isMatch :=
      (List.prefix_iff_eq_take.mp (List.takeWhile_prefix _)).symm
    rw [e]
    exact (hm _).mpr (by rw [if_neg (fun hn => h (by rw [hn]; rfl))])

/-- One item, as a width. -/
def oneWide (f : ι → Bool) : List ι → Nat
  | [] => 0
  | x :: _ => if f x then 1 else 0

theorem picked_eq (f : ι → Bool) (o : Nat) (t : List ι) : picked f o t = sweep (oneWide f) 0 o t := by
  induction t generalizing o with
  | nil => rfl
  | cons x t ih =>
    simp only [picked, sweep, oneWide]
    by_cases h : f x = true <;> simp [h, ih]

theorem once_at (u : Neu ι) (pre t : List ι) :
    (oneWide u.isMatch t = 0 → NoHit G none (pre ++ t) (.once u .empty) (blen pre)) ∧
    (oneWide u.isMatch t ≠ 0 → Runs G none (pre ++ t) (.once u .empty) (blen pre)
      (.ok ⟨blen pre, blen (t.take (oneWide u.isMatch t))⟩ (blen pre + blen (t.take (oneWide u.isMatch t))))) := by
  have ho := parseL_once_empty (β := β) (G := G) (pol := none) (d := pre ++ t) (o := blen pre) u (dropB_append _ _)
  cases t with
  | nil => exact ⟨fun _ => .inl ⟨.once, _, runs_iff.mpr (by rw [matL_none]; exact ho)⟩, fun h => absurd rfl h⟩
  | cons x t =>
    by_cases h : u.isMatch x = true
    · simp only [h, if_true] at ho
      simp only [oneWide, h, if_true]
      refine ⟨fun h => by simp at h, fun _ => runs_iff.mpr ?_⟩
      rw [matL_none, ho]; simp
    · simp only [h] at ho
      simp only [oneWide, h]
      exact ⟨fun _ => .inl ⟨.once, _, runs_iff.mpr (by rw [matL_none]; exact ho)⟩, fun h => absurd rfl h⟩

theorem slice_val (pre t post : List ι) :
    Extract.invoke .slice (pre ++ t ++ post) ⟨blen pre, blen t⟩ = .ok t :=
  origSub_ok.mpr ⟨pre, post, rfl, rfl, rfl⟩

/-- The searches in question, from what the pattern does at one position. -/
theorem both {wide : List ι → Nat} (hp : All G Tidy p) (hb : All G (Bounded G none) p) (ha : All G Aligned p)
    (hw : ∀ t, wide t ≤ t.length)
    (h : ∀ pre t, (wide t = 0 → NoHit G none (pre ++ t) p (blen pre)) ∧
      (wide t ≠ 0 → Runs G none (pre ++ t) p (blen pre)
      (.ok ⟨blen pre, blen (t.take (wide t))⟩ (blen pre + blen (t.take (wide t))))))
    (hi : ∀ d o, o < blen d → ¬ Valid d o → NoHit G none d p o) (pre t : List ι) :
    (∀ r, FindsAll G none (pre ++ t) p .slice (blen pre) r ↔
      r = .ok ((sweep wide 0 (blen pre) t).map (·.2)) (blen (pre ++ t))) ∧
    (∀ r, FindsAll G none (pre ++ t) p .span (blen pre) r ↔
      r = .ok ((sweep wide 0 (blen pre) t).map fun m => ⟨m.1, blen m.2⟩) (blen (pre ++ t))) := by
  have h1 := findsAll_sweep (x := .slice) (val := fun m => m.2) hp (fun d => extractable_slice hb ha)
    (fun _ _ _ => slice_val _ _ _) hw (fun pre t => (h pre t).1) (fun pre t => (h pre t).2) hi t.length pre t
    (Nat.le_refl _)
  have h2 := findsAll_sweep (x := .span) (val := fun m => ⟨m.1, blen m.2⟩) hp (fun d => extractable_span)
    (fun _ _ _ => rfl) hw (fun pre t => (h pre t).1) (fun pre t => (h pre t).2) hi t.length pre t (Nat.le_refl _)
  exact ⟨fun r => ⟨fun h => findsAll_unique h h1, fun h => h ▸ h1⟩,
    fun r => ⟨fun h => findsAll_unique h h2, fun h => h ▸ h2⟩⟩

end Sweep

open Sweep

/-! ## The property -/

/-- **C103 (literal).** `find_all` with a literal gives the occurrences of the word, from left to right and not
overlapping — as texts, and as spans — from any position at an item boundary, and leaves the position at the end. -/
theorem C103_find_all_literal (w pre t : List ι) :
    (∀ r, FindsAll G none (pre ++ t) (.lit w) .slice (blen pre) r ↔
      r = .ok ((occurrences w (blen pre) t).map (·.2)) (blen (pre ++ t))) ∧
    (∀ r, FindsAll G none (pre ++ t) (.lit w) .span (blen pre) r ↔
      r = .ok ((occurrences w (blen pre) t).map fun m => ⟨m.1, blen m.2⟩) (blen (pre ++ t))) := by
  refine both (p := .lit w) (All.intro trivial fun q h => h.elim) (All.intro trivial fun q h => h.elim)
    (All.intro trivial fun q h => h.elim) (fun t => ?_) (fun pre t => lit_at pre t w)
    (fun d o h h' => (fails_inside h h').1 w) pre t
  split
  · next h => exact (List.isPrefixOf_iff_prefix.mp h).length_le
  · exact Nat.zero_le _

/-- **C103 (item).** `find_all` with one item gives every item that the unit accepts. -/
theorem C103_find_all_once (u : Neu ι) (pre t : List ι) :
    (∀ r, FindsAll G none (pre ++ t) (.once u .empty) .slice (blen pre) r ↔
      r = .ok ((picked u.isMatch (blen pre) t).map (·.2)) (blen (pre ++ t))) ∧
    (∀ r, FindsAll G none (pre ++ t) (.once u .empty) .span (blen pre) r ↔
      r = .ok ((picked u.isMatch (blen pre) t).map fun m => ⟨m.1, blen m.2⟩) (blen (pre ++ t))) := by
  rw [picked_eq]
  refine both (p := .once u .empty) (All.intro trivial fun q h => ?_) (All.intro trivial fun q h => ?_)
    (All.intro trivial fun q h => ?_) (fun t => ?_) (fun pre t => once_at u pre t)
    (fun d o h h' => (fails_inside h h').2.1 u .empty) pre t
  iterate 3 simp [Child, Cond.Has] at h
  cases t with
  | nil => exact Nat.le_refl _
  | cons x t => simp only [oneWide]; split <;> simp

/-- **C103 (run).** `find_all` with one or more items gives the longest runs of accepted items. -/
theorem C103_find_all_many1 (u : Neu ι) (pre t : List ι) :
    (∀ r, FindsAll G none (pre ++ t) (.many1 u .empty) .slice (blen pre) r ↔
      r = .ok ((stretches u.isMatch (blen pre) t).map (·.2)) (blen (pre ++ t))) ∧
    (∀ r, FindsAll G none (pre ++ t) (.many1 u .empty) .span (blen pre) r ↔
      r = .ok ((stretches u.isMatch (blen pre) t).map fun m => ⟨m.1, blen m.2⟩) (blen (pre ++ t))) := by
  refine both (p := .many1 u .empty) (All.intro trivial fun q h => ?_) (All.intro trivial fun q h => ?_)
    (All.intro trivial fun q h => ?_) (fun t => (List.takeWhile_prefix _).length_le)
    (fun pre t => many1_at u pre t) (fun d o h h' => (fails_inside h h').2.2 u .empty) pre t
  iterate 3 simp [Child, Cond.Has] at h

/-- **C103 (what is found).** Every occurrence of a word has the text of the word; the items found are the items
of the text that are accepted; the runs found are not empty, and together they are the accepted items. -/
theorem C103_texts (w : List ι) (f : ι → Bool) (o : Nat) (t : List ι) :
    (∀ m ∈ occurrences w o t, m.2 = w) ∧
    (picked f o t).map (·.2) = (t.filter f).map (fun x => [x]) ∧
    (∀ m ∈ stretches f o t, m.2 ≠ [] ∧ ∀ x ∈ m.2, f x = true) ∧
    ((stretches f o t).map (·.2)).flatten = t.filter f := by
  refine ⟨?_, ?_, ?_, ?_⟩
  · have : ∀ (t : List ι) k o, ∀ m ∈ sweep (fun rest => if w.isPrefixOf rest then w.length else 0) k o t, m.2 = w := by
      intro t
      induction t with
      | nil => intro k o m hm; simp [sweep] at hm
      | cons x t ih =>
        intro k o m hm
        cases k with
        | succ k => exact ih _ _ m hm
        | zero =>
          simp only [sweep] at hm
          split at hm
          · exact ih _ _ m hm
          · next k hk =>
            rcases List.mem_cons.mp hm with rfl | hm
            · by_cases h : w.isPrefixOf (x :: t) = true
              · rw [if_pos h] at hk
                dsimp only
                rw [← Nat.succ_eq_add_one, ← hk]
                exact (List.prefix_iff_eq_take.mp (List.isPrefixOf_iff_prefix.mp h)).symm
              · rw [if_neg h] at hk; cases hk
            · exact ih _ _ m hm
    exact this t 0 o
  · induction t generalizing o with
    | nil => rfl
    | cons x t ih =>
      simp only [picked]
      by_cases h : f x = true
      · rw [if_pos h, List.map_cons, ih, List.filter_cons_of_pos h, List.map_cons]
      · rw [if_neg h, ih, List.filter_cons_of_neg h]
  · have : ∀ (t : List ι) k o, ∀ m ∈ sweep (fun rest => (rest.takeWhile f).length) k o t,
        m.2 ≠ [] ∧ ∀ x ∈ m.2, f x = true := by
      intro t
      induction t with
      | nil => intro k o m hm; simp [sweep] at hm
      | cons x t ih =>
        intro k o m hm
        cases k with
        | succ k => exact ih _ _ m hm
        | zero =>
          simp only [sweep] at hm
          split at hm
          · exact ih _ _ m hm
          · next k hk =>
            rcases List.mem_cons.mp hm with rfl | hm
            · refine ⟨by simp, ?_⟩
              dsimp only
              rw [← Nat.succ_eq_add_one, ← hk, ← List.prefix_iff_eq_take.mp (List.takeWhile_prefix _)]
              exact fun x hx => List.all_eq_true.mp List.all_takeWhile x hx
            · exact ih _ _ m hm
    exact this t 0 o
  · have : ∀ (n : Nat) (t : List ι) o, t.length ≤ n →
        ((sweep (fun rest => (rest.takeWhile f).length) 0 o t).map (·.2)).flatten = t.filter f := by
      intro n
      induction n with
      | zero =>
        intro t o hn
        rw [List.eq_nil_of_length_eq_zero (l := t) (by omega)]; rfl
      | succ n ih =>
        intro t o hn
        cases t with
        | nil => rfl
        | cons x t =>
          simp only [List.length_cons] at hn
          simp only [sweep]
          by_cases h : f x = true
          · have e : ((x :: t).takeWhile f).length = (t.takeWhile f).length + 1 := by simp [h]
            rw [e]
            dsimp only
            rw [sweep_pass _ _ _ _ (List.takeWhile_prefix _).length_le, List.map_cons, List.flatten_cons,
              ih _ _ (by simp; omega), List.take_succ_cons]
            have e1 : t.take (t.takeWhile f).length = t.takeWhile f :=
              (List.prefix_iff_eq_take.mp (List.takeWhile_prefix _)).symm
            rw [List.filter_cons_of_pos h, List.cons_append]
            congr 1
            have e2 : (t.take (t.takeWhile f).length).filter f = t.take (t.takeWhile f).length := by
              rw [e1]; exact List.filter_eq_self.mpr fun x hx => List.all_eq_true.mp List.all_takeWhile x hx
            rw [← e2, ← List.filter_append, List.take_append_drop]
          · have e : ((x :: t).takeWhile f).length = 0 := by simp [h]
            rw [e]
            dsimp only
            rw [ih _ _ (by omega), List.filter_cons_of_neg h]
    exact this t.length t o (Nat.le_refl _)

/-- Occurrences do not overlap, a word of two-byte characters is measured in bytes, and a run ends where the first
item that is not accepted stands. -/
example : occurrences ['a', 'a'] 0 ['a', 'a', 'a', 'b', 'a', 'a'] = [(0, ['a', 'a']), (4, ['a', 'a'])] ∧
    occurrences ['é'] 0 ['é', 'x', 'é'] = [(0, ['é']), (3, ['é'])] ∧
    picked (· == 'é') 1 ['é', 'x', 'é'] = [(1, ['é']), (4, ['é'])] ∧
    stretches (fun c => c != ' ') 0 ['a', 'é', ' ', ' ', 'b'] = [(0, ['a', 'é']), (5, ['b'])] := by
  refine ⟨?_, ?_, ?_, ?_⟩ <;> decide

/-- The words of a text that begins in the middle of another. -/
example : FindsAll (β := Nat) G0 none ['x', 'é', 'a', ' ', 'b'] (.lit ['a']) .span 1 (.ok [⟨3, 1⟩] 6) :=
  ((C103_find_all_literal (G := G0) ['a'] ['x'] ['é', 'a', ' ', 'b']).2 _).mpr (by decide)

end Neure
