import Verif.SettledCtor
import Verif.SettledStop
import Verif.PropsUnit
import Verif.PropsCore
import Verif.PropsFind
import Verif.PropsJson
import Verif.Demo
/-!
# C88: more text does not change what was decided before its end
-/

namespace Neure

set_option linter.unusedSectionVars false
set_option linter.unusedSimpArgs false

open Demo

variable {ι β σ : Type} [Item ι] {G : Rules ι β} {H : Handler ι β σ} {pol : Option (Pat ι β)} {d : List ι}

/-- **C88.** If `try_mat` returned without asking where the text ends, it returns the same
whatever text follows: match or error, span, error code and position. -/
theorem C88_more_text (p : Pat ι β) (o : Nat) (r : Res Span) (h : Settled G pol d p o r) (x : List ι) :
    Runs G pol (d ++ x) p o r := by
  obtain ⟨n, hn⟩ := h
  exact ⟨n + 1, matS_more n pol d x p o r hn⟩

/-- **C88 (building).** The same of `ctor_handler`, for the value and the handler's state. -/
theorem C88_more_text_construct (p : Pat ι β) (st : σ) (o : Nat) (r : CRes σ (Val β))
    (h : SettledC G H pol d p st o r) (x : List ι) : Constructs G H pol (d ++ x) p st o r := by
  obtain ⟨n, hn⟩ := h
  exact ⟨n + 1, conS_more n pol d x p st o r hn⟩

/-- **C88 (pieces).** A text that arrives in pieces: a result that was settled after `k` pieces
is the result on the whole text, and two results settled at different times are equal. -/
theorem C88_pieces (pieces : List (List ι)) (p : Pat ι β) (o k : Nat) (r : Res Span)
    (h : Settled G pol (pieces.take k).flatten p o r) :
    Runs G pol pieces.flatten p o r ∧
      ∀ k' r', Settled G pol (pieces.take k').flatten p o r' → r' = r := by
  have all : ∀ k r, Settled G pol (pieces.take k).flatten p o r → Runs G pol pieces.flatten p o r := by
    intro k r h
    have := C88_more_text p o r h (pieces.drop k).flatten
    rwa [← List.flatten_append, List.take_append_drop] at this
  exact ⟨all k r h, fun k' r' h' => (all k' r' h').unique (all k r h)⟩

/-! ## The primitives: exactly when nothing is asked -/

theorem leaf_settled {p : Pat ι β} {o : Nat} {r : Res Span}
    (hp : ∀ n mt pr n' mt' pr', step G n mt pr d p o = step G n' mt' pr' d p o)
    (hD : Done (matWith (parseS G 0) none) d o p) (h : Parses G none d p o r) : Settled G none d p o r := by
  obtain ⟨n, hn⟩ := h
  cases n with
  | zero => cases hn
  | succ n =>
    refine ⟨1, ?_⟩
    show parseS G 1 none d p o = some r
    rw [parseS]; dsimp only
    rw [if_pos hD]
    exact (hp _ _ _ _ _ _).trans hn

theorem final_parses {p : Pat ι β} {o : Nat} {r : Res Span} :
    Final G none d p o r ↔ ∀ x, Parses G none (d ++ x) p o r := Iff.rfl

theorem parses_unique {p : Pat ι β} {o : Nat} {r r' : Res Span} (h : Parses G none d p o r)
    (h' : Parses G none d p o r') : r = r' := Runs.unique (G := G) (pol := none) h h'

/-- What has to be shown of a primitive: it is settled if `C`, and if its result does not depend
on what follows then `C`. -/
theorem exactly {p : Pat ι β} {o : Nat} {C : Prop} (h1 : C → ∃ r, Settled G none d p o r)
    (h2 : ∀ r, Final G none d p o r → C) :
    ((∃ r, Settled G none d p o r) ↔ C) ∧ ((∃ r, Final G none d p o r) ↔ C) :=
  ⟨⟨fun ⟨r, h⟩ => h2 r (C88_more_text p o r h), h1⟩,
    ⟨fun ⟨r, h⟩ => h2 r h, fun c => (h1 c).imp fun r h => C88_more_text p o r h⟩⟩

variable (pre post : List ι) (hd : d = pre ++ post)
include hd

/-- **C88 (literal).** A literal is decided exactly when it is there or the text differs from it
before the end of the text; that is exactly when the rest of the text does not matter. -/
theorem C88_literal (l : List ι) :
    ((∃ r, Settled (β := β) G none d (.lit l) (blen pre) r) ↔ l <+: post ∨ ¬ post <+: l) ∧
    ((∃ r, Final (β := β) G none d (.lit l) (blen pre) r) ↔ l <+: post ∨ ¬ post <+: l) := by
  have hdr : dropB d (blen pre) = some post := by rw [hd]; exact dropB_append _ _
  have hlen := dropB_len hdr
  have val : ∀ x, Parses (β := β) G none (d ++ x) (.lit l) (blen pre)
      (if l <+: post ++ x then newSpanInc (blen pre) (blen l) else .err .literal (blen pre)) := by
    intro x
    have hx := dropB_more hdr x
    refine ⟨1, ?_⟩
    simp only [parse, step, litParse, remK_at hx, origAt_ok.mpr hx, caseO]
    by_cases hp : l <+: post ++ x
    · have hb : blen l ≤ blen (post ++ x) := by
        obtain ⟨t, ht⟩ := hp; rw [← ht]; simp
      rw [if_pos hb, if_pos hp, List.isPrefixOf_iff_prefix.mpr hp]; rfl
    · have : l.isPrefixOf (post ++ x) = false := by
        cases he : l.isPrefixOf (post ++ x) with
        | false => rfl
        | true => exact absurd (List.isPrefixOf_iff_prefix.mp he) hp
      rw [if_neg hp, this]; simp
  refine exactly (fun hc => ?_) (fun r hr => ?_)
  · have := val []
    rw [List.append_nil] at this
    exact ⟨_, leaf_settled (fun _ _ _ _ _ _ => rfl) ⟨post, hdr, hc⟩ this⟩
  · by_cases h1 : l <+: post
    · exact .inl h1
    · refine .inr fun ⟨t, ht⟩ => ?_
      have a := parses_unique (hr []) (val [])
      have b := parses_unique (hr t) (val t)
      rw [List.append_nil, if_neg h1] at a
      rw [if_pos ⟨[], by rw [List.append_nil, ht]⟩] at b
      rw [a] at b; cases b

/-- **C88 (`end`).** The anchor is decided exactly if there is text left. -/
theorem C88_end (a : ι) :
    ((∃ r, Settled (β := β) G none d .anchorEnd (blen pre) r) ↔ post ≠ []) ∧
    ((∃ r, Final (β := β) G none d .anchorEnd (blen pre) r) ↔ post ≠ []) := by
  have hdr : dropB d (blen pre) = some post := by rw [hd]; exact dropB_append _ _
  have hlen := dropB_len hdr
  have pos : ∀ l : List ι, l ≠ [] → 0 < blen l := fun l h => Nat.pos_of_ne_zero fun h0 => h (blen_eq_zero.mp h0)
  refine exactly (fun hc => ?_) (fun r hr hc => ?_)
  · have := pos post hc
    exact ⟨.err .anchorEnd (blen pre), leaf_settled (fun _ _ _ _ _ _ => rfl)
      (show blen pre < blen d by omega) ⟨1, by simp only [parse, step]; rw [if_neg (by omega)]⟩⟩
  · subst hc
    have e0 : blen pre = blen d := by simpa using hlen
    have v0 : Parses (β := β) G none (d ++ []) .anchorEnd (blen pre) (newSpanInc (blen pre) 0) :=
      ⟨1, by simp only [parse, step, List.append_nil]; rw [if_pos e0]⟩
    have v1 : Parses (β := β) G none (d ++ [a]) .anchorEnd (blen pre) (.err .anchorEnd (blen pre)) :=
      ⟨1, by
        have := Item.size_pos a
        simp only [parse, step, blen_append, blen_cons, blen_nil]; rw [if_neg (by omega)]⟩
    have a := parses_unique (hr []) v0
    have b := parses_unique (hr [_]) v1
    rw [a] at b; cases b

omit hd in
theorem blen_replicate (k : Nat) (a : ι) : k ≤ blen (List.replicate k a) := by
  induction k with
  | zero => simp
  | succ k ih => have := Item.size_pos a; simp [List.replicate_succ]; omega

/-- **C88 (`consume`).** Decided exactly if so many bytes are there. -/
theorem C88_consume (a : ι) (n : Nat) :
    ((∃ r, Settled (β := β) G none d (.consume n) (blen pre) r) ↔ n ≤ blen post) ∧
    ((∃ r, Final (β := β) G none d (.consume n) (blen pre) r) ↔ n ≤ blen post) := by
  have hdr : dropB d (blen pre) = some post := by rw [hd]; exact dropB_append _ _
  have hlen := dropB_len hdr
  have val : ∀ x, Parses (β := β) G none (d ++ x) (.consume n) (blen pre)
      (if n ≤ blen (post ++ x) then newSpanInc (blen pre) n else .err .consume (blen pre)) := by
    intro x
    refine ⟨1, ?_⟩
    simp only [parse, step, consumeParse, remK_at (dropB_more hdr x)]
    by_cases h : n ≤ blen (post ++ x)
    · rw [if_pos h, if_pos h]
    · rw [if_neg h, if_neg h]
  refine exactly (fun hc => ?_) (fun r hr => ?_)
  · have := val []
    rw [List.append_nil] at this
    exact ⟨_, leaf_settled (fun _ _ _ _ _ _ => rfl) (show blen pre + n ≤ blen d by omega) this⟩
  · by_cases h : n ≤ blen post
    · exact h
    · exfalso
      have e0 := parses_unique (hr []) (val [])
      have e1 := parses_unique (hr (List.replicate n a)) (val (List.replicate n a))
      have := blen_replicate n a
      rw [List.append_nil, if_neg h] at e0
      rw [if_pos (by simp; omega)] at e1
      rw [e0] at e1; cases e1

/-- **C88 (`consume_all`).** Never decided. -/
theorem C88_consume_all (a : ι) : ¬ ∃ r, Final (β := β) G none d .consumeAll (blen pre) r := by
  rintro ⟨r, hr⟩
  have val : ∀ x, Parses (β := β) G none (d ++ x) .consumeAll (blen pre)
      (newSpanInc (blen pre) (blen (d ++ x) - blen pre)) := fun x => ⟨1, rfl⟩
  have e0 := parses_unique (hr []) (val [])
  have e1 := parses_unique (hr [a]) (val [a])
  rw [e0] at e1
  have := Item.size_pos a
  simp only [newSpanInc, hd, Res.ok.injEq, Span.mk.injEq, blen_append, blen_cons, blen_nil] at e1
  omega

/-- **C88 (one item).** `once` and `opt` are decided exactly if there is an item to look at. -/
theorem C88_item (u : Neu ι) (a : ι) (ha : u.isMatch a = true) :
    (((∃ r, Settled (β := β) G none d (.once u .empty) (blen pre) r) ↔ post ≠ []) ∧
      ((∃ r, Final (β := β) G none d (.once u .empty) (blen pre) r) ↔ post ≠ [])) ∧
    (((∃ r, Settled (β := β) G none d (.optU u .empty) (blen pre) r) ↔ post ≠ []) ∧
      ((∃ r, Final (β := β) G none d (.optU u .empty) (blen pre) r) ↔ post ≠ [])) := by
  have hdr : dropB d (blen pre) = some post := by rw [hd]; exact dropB_append _ _
  have cns : post ≠ [] → ∃ b tl, post = b :: tl := List.exists_cons_of_ne_nil
  have ok : ∀ x, post = [] → ItemGives (β := β) G none (d ++ x) (blen pre) u .empty 0 a (.ok true) :=
    fun x _ => .inl ⟨ha, rfl⟩
  refine ⟨exactly (fun hc => ?_) (fun r hr hc => ?_), exactly (fun hc => ?_) (fun r hr hc => ?_)⟩
  · obtain ⟨b, tl, rfl⟩ := cns hc
    cases hb : u.isMatch b with
    | true =>
      exact ⟨_, leaf_settled (fun _ _ _ _ _ _ => rfl) ⟨trivial, b, tl, hdr⟩
        (((C23_once u .empty pre (b :: tl) hd).1 _ _).mpr ⟨b, tl, rfl, .inl ⟨hb, rfl⟩, rfl, rfl⟩)⟩
    | false =>
      exact ⟨_, leaf_settled (fun _ _ _ _ _ _ => rfl) ⟨trivial, b, tl, hdr⟩
        (((C23_once u .empty pre (b :: tl) hd).2 .once _).mpr ⟨rfl, .inr ⟨b, tl, rfl, .inl ⟨.inr ⟨hb, rfl⟩, rfl⟩⟩⟩)⟩
  · subst hc
    have v0 := ((C23_once (β := β) (G := G) (pol := none) (d := d ++ []) u .empty pre [] (by simp [hd])).2 .once _).mpr
      ⟨rfl, .inl ⟨rfl, rfl⟩⟩
    have v1 := ((C23_once (β := β) (G := G) (pol := none) (d := d ++ [a]) u .empty pre [a] (by simp [hd])).1 _ _).mpr
      ⟨a, [], rfl, ok _ rfl, rfl, rfl⟩
    have e0 := parses_unique (hr []) v0
    have e1 := parses_unique (hr [a]) v1
    rw [e0] at e1; cases e1
  · obtain ⟨b, tl, rfl⟩ := cns hc
    cases hb : u.isMatch b with
    | true =>
      exact ⟨_, leaf_settled (fun _ _ _ _ _ _ => rfl) ⟨trivial, b, tl, hdr⟩
        (((C23_opt_unit u .empty pre (b :: tl) hd).1 _ _).mpr (.inl ⟨b, tl, rfl, .inl ⟨hb, rfl⟩, rfl, rfl⟩))⟩
    | false =>
      exact ⟨_, leaf_settled (fun _ _ _ _ _ _ => rfl) ⟨trivial, b, tl, hdr⟩
        (((C23_opt_unit u .empty pre (b :: tl) hd).1 _ _).mpr (.inr ⟨fun y tl' h => by cases h; exact .inr ⟨hb, rfl⟩,
          rfl, rfl⟩))⟩
  · subst hc
    have v0 := ((C23_opt_unit (β := β) (G := G) (pol := none) (d := d ++ []) u .empty pre [] (by simp [hd])).1 _ _).mpr
      (.inr ⟨fun y tl' h => (List.cons_ne_nil _ _ h.symm).elim, rfl, rfl⟩)
    have v1 := ((C23_opt_unit (β := β) (G := G) (pol := none) (d := d ++ [a]) u .empty pre [a] (by simp [hd])).1 _ _).mpr
      (.inl ⟨a, [], rfl, ok _ rfl, rfl, rfl⟩)
    have e0 := parses_unique (hr []) v0
    have e1 := parses_unique (hr [a]) v1
    have := Item.size_pos a
    rw [e0] at e1
    simp only [Res.ok.injEq, Span.mk.injEq] at e1
    omega


omit hd in
theorem scan_plain (mt : List ι → Pat ι β → Nat → Option (Res Span)) (o : Nat) (u : Neu ι) (more : Nat → Bool)
    (rest : List ι) : ∀ k cnt beg, ∃ s, scan (testItem mt d o u (.empty : Cond ι β)) more cnt beg (indices k rest) =
        some (.ok s) ∧ ((∃ y ∈ rest, u.isMatch y = false) → s.Ended more) ∧
      ((∀ c, more c = true) → s.cnt = cnt + (rest.takeWhile u.isMatch).length) ∧
      (∀ n, (∀ c, more c = decide (c < n)) → s.cnt = cnt + ((rest.takeWhile u.isMatch).take (n - cnt)).length) := by
  induction rest with
  | nil => intro k cnt beg; exact ⟨_, rfl, by simp, by simp, by simp⟩
  | cons a tl ih =>
    intro k cnt beg
    rw [indices, scan]
    by_cases hm : more cnt = true
    · rw [if_pos hm]
      cases ha : u.isMatch a with
      | true =>
        simp only [testItem, ha, check, if_true]
        obtain ⟨s, h1, h3, h2, h2'⟩ := ih (k + Item.size a) (cnt + 1) (beg.or (some k))
        refine ⟨s, h1, fun ⟨y, hy, hn⟩ => h3 ⟨y, ?_, hn⟩, fun hc => ?_, fun n hc => ?_⟩
        · rcases List.mem_cons.mp hy with rfl | h
          · rw [ha] at hn; cases hn
          · exact h
        · rw [h2 hc]
          simp [List.takeWhile_cons, ha]; omega
        · rw [h2' n hc]
          rw [hc] at hm
          have hm : cnt < n := by simpa using hm
          obtain ⟨j, hj⟩ : ∃ j, n - cnt = j + 1 := ⟨n - cnt - 1, by omega⟩
          have : n - (cnt + 1) = j := by omega
          simp [List.takeWhile_cons, ha, hj, this]; omega
      | false =>
        simp only [testItem, ha]
        exact ⟨_, rfl, fun _ => .inl (by simp), fun _ => by simp [List.takeWhile_cons, ha],
          fun _ _ => by simp [List.takeWhile_cons, ha]⟩
    · rw [if_neg hm]
      refine ⟨_, rfl, fun _ => .inr (Bool.eq_false_iff.mpr hm), fun hc => absurd (hc cnt) hm, fun n hc => ?_⟩
      rw [hc] at hm
      have : n - cnt = 0 := by
        have : ¬ cnt < n := by simpa using hm
        omega
      simp [this]

omit hd in
theorem takeWhile_all {u : ι → Bool} {l : List ι} (h : ¬ ∃ y ∈ l, u y = false) (x : List ι) :
    (l ++ x).takeWhile u = l ++ x.takeWhile u := by
  induction l with
  | nil => rfl
  | cons a tl ih =>
    have ha : u a = true := by
      cases hu : u a with
      | true => rfl
      | false => exact absurd ⟨a, List.mem_cons_self, hu⟩ h
    rw [List.cons_append, List.takeWhile_cons, if_pos ha, ih fun ⟨y, hy, hn⟩ => h ⟨y, List.mem_cons_of_mem _ hy, hn⟩]
    rfl

/-- **C88 (runs).** `many0` and `many1` are decided exactly if the rest of the text has an item
that is not accepted. -/
theorem C88_run (u : Neu ι) (a : ι) (ha : u.isMatch a = true) :
    (((∃ r, Settled (β := β) G none d (.many0 u .empty) (blen pre) r) ↔ ∃ y ∈ post, u.isMatch y = false) ∧
      ((∃ r, Final (β := β) G none d (.many0 u .empty) (blen pre) r) ↔ ∃ y ∈ post, u.isMatch y = false)) ∧
    (((∃ r, Settled (β := β) G none d (.many1 u .empty) (blen pre) r) ↔ ∃ y ∈ post, u.isMatch y = false) ∧
      ((∃ r, Final (β := β) G none d (.many1 u .empty) (blen pre) r) ↔ ∃ y ∈ post, u.isMatch y = false)) := by
  have hdr : dropB d (blen pre) = some post := by rw [hd]; exact dropB_append _ _
  have hda : ∀ x, d ++ x = pre ++ (post ++ x) := fun x => by rw [hd, List.append_assoc]
  have one : [a].takeWhile u.isMatch = [a] := by simp [ha]
  have sz := Item.size_pos a
  refine ⟨exactly (fun hc => ?_) (fun r hr => ?_), exactly (fun hc => ?_) (fun r hr => ?_)⟩
  · refine ⟨_, leaf_settled (fun _ _ _ _ _ _ => rfl) ⟨trivial, post, hdr, fun s hs => ?_⟩
      ((C23_many0_takeWhile u pre post hd _).mpr rfl)⟩
    obtain ⟨s', h1, h3, _⟩ := scan_plain (d := d) (matWith (parseS G 0) none) (blen pre) u (fun _ => true) post 0 0 none
    cases h1.symm.trans hs
    exact h3 hc
  · refine Classical.byContradiction fun hc => ?_
    have e0 := (C23_many0_takeWhile u pre _ (hda []) r).mp (hr [])
    have e1 := (C23_many0_takeWhile u pre _ (hda [a]) r).mp (hr [a])
    rw [takeWhile_all hc] at e0 e1
    rw [e0, one] at e1
    simp only [List.takeWhile_nil, List.append_nil, blen_append, blen_cons, blen_nil, Res.ok.injEq, Span.mk.injEq] at e1
    omega
  · refine ⟨_, leaf_settled (fun _ _ _ _ _ _ => rfl) ⟨trivial, post, hdr, fun s hs => ?_⟩
      ((C23_many1_takeWhile u pre post hd _).mpr rfl)⟩
    obtain ⟨s', h1, h3, _⟩ := scan_plain (d := d) (matWith (parseS G 0) none) (blen pre) u (fun _ => true) post 0 0 none
    cases h1.symm.trans hs
    exact h3 hc
  · refine Classical.byContradiction fun hc => ?_
    have e0 := (C23_many1_takeWhile u pre _ (hda []) r).mp (hr [])
    have e1 := (C23_many1_takeWhile u pre _ (hda [a]) r).mp (hr [a])
    rw [takeWhile_all hc] at e0 e1
    rw [e0] at e1
    rw [one, if_neg (c := post ++ [a] = []) (by simp)] at e1
    split at e1
    · cases e1
    · simp only [List.takeWhile_nil, List.append_nil, blen_append, blen_cons, blen_nil, Res.ok.injEq, Span.mk.injEq] at e1
      omega

/-- **C88 (`between`).** Decided exactly if the rest of the text has an item that is not accepted,
or as many items as the upper bound. -/
theorem C88_between (u : Neu ι) (hf : u.Fair) (m n : Nat) (hmn : m ≤ n) (a : ι) (ha : u.isMatch a = true) :
    ((∃ r, Settled (β := β) G none d (.between m n u .empty) (blen pre) r) ↔
      (∃ y ∈ post, u.isMatch y = false) ∨ n ≤ post.length) ∧
    ((∃ r, Final (β := β) G none d (.between m n u .empty) (blen pre) r) ↔
      (∃ y ∈ post, u.isMatch y = false) ∨ n ≤ post.length) := by
  have hdr : dropB d (blen pre) = some post := by rw [hd]; exact dropB_append _ _
  have hda : ∀ x, d ++ x = pre ++ (post ++ x) := fun x => by rw [hd, List.append_assoc]
  have sz := Item.size_pos a
  refine exactly (fun hc => ?_) (fun r hr => ?_)
  · obtain ⟨s, h1, h3, _, h2⟩ := scan_plain (d := d) (matWith (parseS G 0) none) (blen pre) u
      (fun k => decide (k < n)) post 0 0 none
    have h2 := h2 n fun _ => rfl
    have hE : s.Ended fun k => decide (k < n) := by
      by_cases hy : ∃ y ∈ post, u.isMatch y = false
      · exact h3 hy
      · have h4 := takeWhile_all hy []
        simp only [List.append_nil, List.takeWhile_nil] at h4
        have h5 := hc.resolve_left hy
        simp only [h4, List.length_take, Nat.sub_zero] at h2
        exact .inr (by simp; omega)
    simp only [Nat.zero_add, Nat.sub_zero] at h2
    have fit : ∀ l : List ι, (∀ y ∈ l, u.isMatch y = true) → l.length * u.minLength ≤ blen l := by
      intro l
      induction l with
      | nil => intro _; simp
      | cons b tl ih =>
        intro hl
        have h6 := hf b (hl b List.mem_cons_self)
        have h7 := ih fun y hy => hl y (List.mem_cons_of_mem _ hy)
        simp only [List.length_cons, blen_cons, Nat.succ_mul]; omega
    have fits := fit ((post.takeWhile u.isMatch).take n)
      fun y hy => by
        have h8 := List.mem_of_mem_take hy
        exact List.all_eq_true.mp (List.all_takeWhile (p := u.isMatch) (l := post)) y h8
    have le : blen ((post.takeWhile u.isMatch).take n) ≤ blen post := by
      have e1 : blen ((post.takeWhile u.isMatch).take n) + blen ((post.takeWhile u.isMatch).drop n) =
          blen (post.takeWhile u.isMatch) := by rw [← blen_append, List.take_append_drop]
      have e2 : blen (post.takeWhile u.isMatch) + blen (post.dropWhile u.isMatch) = blen post := by
        rw [← blen_append, List.takeWhile_append_dropWhile]
      omega
    refine ⟨_, leaf_settled (fun _ _ _ _ _ _ => rfl) ⟨trivial, post, hdr, ?_⟩
      ((C24_between_takeWhile m n u hf pre post hd _).mpr rfl)⟩
    by_cases hm : m ≤ s.cnt
    · refine .inl ⟨?_, fun s' hs' => ?_⟩
      · rw [h2] at hm
        have := Nat.mul_le_mul_right u.minLength hm
        omega
      · cases h1.symm.trans hs'; exact hE
    · exact .inr ⟨s, h1, hE, by omega⟩
  · refine Classical.byContradiction fun hc => ?_
    have hc1 : ¬ ∃ y ∈ post, u.isMatch y = false := fun h => hc (.inl h)
    have hc2 : post.length < n := Nat.lt_of_not_le fun h => hc (.inr h)
    have rep : ∀ k, (List.replicate k a).takeWhile u.isMatch = List.replicate k a := by
      intro k; induction k with
      | zero => rfl
      | succ k ih => rw [List.replicate_succ, List.takeWhile_cons, if_pos ha, ih]
    have e0 := (C24_between_takeWhile m n u hf pre _ (hda []) r).mp (hr [])
    have e1 := (C24_between_takeWhile m n u hf pre _ (hda (List.replicate (n - post.length) a)) r).mp (hr _)
    rw [takeWhile_all hc1] at e0 e1
    have l0 : (post ++ [].takeWhile u.isMatch).take n = post := by
      rw [List.takeWhile_nil, List.append_nil]; exact List.take_of_length_le (by omega)
    have l1 : (post ++ (List.replicate (n - post.length) a).takeWhile u.isMatch).take n =
        post ++ List.replicate (n - post.length) a := by
      rw [rep]; exact List.take_of_length_le (by simp; omega)
    rw [l0] at e0
    rw [l1, if_pos (by simp; omega), e0] at e1
    have := blen_replicate (n - post.length) a
    split at e1
    · simp only [Res.ok.injEq, Span.mk.injEq, blen_append] at e1
      omega
    · cases e1

omit hd

/-! ## A terminator -/

/-- **C88 (terminator).** If the text has an item that no unit of the pattern accepts and no literal
contains (a line end, a zero byte), a match from a position before it is settled: it ends before
that item, and what follows the text does not matter. -/
theorem C88_terminator (z : ι) (hpol : ∀ q, pol = some q → All G (StopsAt G none z) q) {p : Pat ι β}
    (hp : All G (StopsAt G pol z) p) (before after : List ι) (o : Nat) (ho : Valid before o) (r : Res Span)
    (h : Runs G pol (before ++ z :: after) p o r) :
    Settled G pol (before ++ z :: after) p o r ∧
    (∀ x, Runs G pol (before ++ z :: after ++ x) p o r) ∧ ∀ s o', r = .ok s o' → Valid before o' := by
  obtain ⟨n, hn⟩ := h
  have key : matWith (parseS G n) pol (before ++ z :: after) p o = some r ∧ InR (Valid before) r := by
    cases pol with
    | none => exact stop_inv z n none hpol before after p o ho hp r hn
    | some q =>
      simp only [tryMat, matWith] at hn ⊢
      cases hq : parse G n none (before ++ z :: after) q o with
      | none => rw [hq] at hn; cases hn
      | some v =>
        obtain ⟨h1, h2⟩ := stop_inv z n none (fun _ h => by cases h) before after q o ho (hpol q rfl) v hq
        rw [hq] at hn; rw [h1]
        cases v with
        | ok s o1 => exact stop_inv z n _ hpol before after p o1 h2 hp r hn
        | err e o1 => simp only [caseR, Option.some.injEq] at hn; subst hn; exact ⟨rfl, h2⟩
        | panic => simp only [caseR, Option.some.injEq] at hn; subst hn; exact ⟨rfl, trivial⟩
  have hS : Settled G pol (before ++ z :: after) p o r := ⟨n, key.1⟩
  exact ⟨hS, fun x => C88_more_text p o r hS x, fun s o' e => by subst e; exact key.2⟩

/-! ## Text extraction, search, the JSON example -/

/-- The text of a match that ends inside the text is the same whatever follows: a handler that
extracts text asks nothing. -/
theorem C88_extract {t : List ι} {s : Span} {o : Nat} {st : σ} (h : origSub d s.beg s.len = .ok t) (x : List ι) :
    extractH (d ++ x) o s st = extractH d o s st := by
  obtain ⟨a, b, e, h1, h2⟩ := origSub_ok.mp h
  simp only [extractH, h]
  rw [origSub_ok.mpr ⟨a, b ++ x, by rw [e, List.append_assoc], h1, h2⟩]

/-- **C88 (`find`).** If the misses before a hit and the hit itself were settled, `find` returns
that hit whatever text follows. -/
theorem C88_find (p : Pat ι β) (hp : All G Tidy p) (o k o' : Nat) (s : Span)
    (hk : o ≤ k) (hlt : k < blen d)
    (hmiss : ∀ j, o ≤ j → j < k → (∃ e o1, Settled G none d p j (.err e o1)) ∨
      ∃ s1 o1, Settled G none d p j (.ok s1 o1) ∧ s1.len = 0)
    (hhit : Settled G none d p k (.ok s o')) (hs : s.len ≠ 0) (x : List ι) :
    Finds G none (d ++ x) p .span o (.ok (some s) o') := by
  refine ((C28_find_leftmost hp extractable_span o o').1 s).mpr ⟨k, s, ⟨hk, by simp; omega, fun j h1 h2 => ?_,
    C88_more_text p k _ hhit x, hs⟩, rfl⟩
  rcases hmiss j h1 h2 with ⟨e, o1, h⟩ | ⟨s1, o1, h, h0⟩
  · exact .inl ⟨e, o1, C88_more_text p j _ h x⟩
  · exact .inr ⟨s1, o1, C88_more_text p j _ h x, h0⟩

/-- **C88 (JSON).** The parser of the JSON example, on a text that arrives in pieces: a document
that was read is the document that is read from the whole text, and a document that ends inside
the text that has arrived is read at once. -/
theorem C88_json {ν : Type} (cv : JConv ν) (d x : List UInt8) (v : Val (JVal ν)) (o' : Nat) :
    (JsonParse cv d (.ok v () o') → JsonParse cv (d ++ x) (.ok v () o')) ∧
    (JsonParse cv (d ++ x) (.ok v () o') → o' ≤ d.length → JsonParse cv d (.ok v () o')) := by
  constructor
  · intro h
    obtain ⟨t, post, j, rfl, ho, hj, hv⟩ := (C49_accepts_exactly cv _ _ _).mp h
    exact (C49_accepts_exactly cv _ _ _).mpr ⟨t, post ++ x, j, by simp, ho, hj, hv⟩
  · intro h hle
    obtain ⟨t, post, j, he, ho, hj, hv⟩ := (C49_accepts_exactly cv _ _ _).mp h
    have hp : t <+: d := by
      have h1 : t <+: d ++ x := ⟨post, he.symm⟩
      exact List.prefix_of_prefix_length_le h1 (List.prefix_append _ _) (by omega)
    obtain ⟨q, rfl⟩ := hp
    exact (C49_accepts_exactly cv _ _ _).mpr ⟨t, q, j, rfl, ho, hj, hv⟩

/-! ## A match that ends before the end of the text can change -/

/-- `"abcd"` or `"ab"`. -/
def longShort : Pat Char Nat := .or (.lit ['a', 'b', 'c', 'd']) (.lit ['a', 'b'])

/-- Ending before the end of the text is not enough: `or("abcd", "ab")` matches `ab` in `abc`, one
byte before its end, and `abcd` when a `d` follows. -/
theorem C88_ends_before_counterexample :
    Runs G0 none ['a', 'b', 'c'] longShort 0 (.ok ⟨0, 2⟩ 2) ∧ 2 < blen ['a', 'b', 'c'] ∧
    Runs G0 none (['a', 'b', 'c'] ++ ['d']) longShort 0 (.ok ⟨0, 4⟩ 4) ∧
    ∀ r, ¬ Settled G0 none ['a', 'b', 'c'] longShort 0 r := by
  have h1 : Runs G0 none ['a', 'b', 'c'] longShort 0 (.ok ⟨0, 2⟩ 2) := ⟨2, by decide⟩
  have h2 : Runs G0 none (['a', 'b', 'c'] ++ ['d']) longShort 0 (.ok ⟨0, 4⟩ 4) := ⟨2, by decide⟩
  refine ⟨h1, by decide, h2, fun r h => ?_⟩
  have e1 := (C88_more_text _ _ _ h []).unique (by rw [List.append_nil]; exact h1)
  have e2 := (C88_more_text _ _ _ h ['d']).unique h2
  rw [e1] at e2; cases e2

/-! ## Non-vacuity -/

theorem lit_settled {G : Rules ι β} {d : List ι} {l : List ι} {o : Nat} {r : Res Span} (n : Nat)
    (hD : ∃ rest, dropB d o = some rest ∧ (l <+: rest ∨ ¬ rest <+: l))
    (h : litParse d l o = some r) : parseS G (n + 1) none d (.lit l) o = some r := by
  rw [parseS]; dsimp only
  rw [if_pos (by exact hD)]
  exact h

/-- `or("ab", "cd")` on `cdx` is settled: `ab` differs in the first item, `cd` is there. -/
theorem or_settled : Settled (β := Nat) G0 none ['c', 'd', 'x'] (.or (.lit ['a', 'b']) (.lit ['c', 'd'])) 0 (.ok ⟨0, 2⟩ 2) := by
  refine ⟨2, ?_⟩
  show parseS G0 2 none _ _ _ = _
  rw [parseS]; dsimp only
  rw [if_pos (by exact trivial)]
  simp only [step, matWith]
  rw [lit_settled (r := .err .literal 0) 0 ⟨['c', 'd', 'x'], rfl, .inr (by decide)⟩ (by decide)]
  simp only [caseR]
  rw [lit_settled (r := .ok ⟨0, 2⟩ 2) 0 ⟨['c', 'd', 'x'], rfl, .inl (by decide)⟩ (by decide)]

example (x : List Char) :
    Runs (β := Nat) G0 none (['c', 'd', 'x'] ++ x) (.or (.lit ['a', 'b']) (.lit ['c', 'd'])) 0 (.ok ⟨0, 2⟩ 2) :=
  C88_more_text _ _ _ or_settled x
-- the same text in pieces
example : Settled (β := Nat) G0 none (([['c'], ['d', 'x'], ['y']] : List (List Char)).take 2).flatten
    (.or (.lit ['a', 'b']) (.lit ['c', 'd'])) 0 (.ok ⟨0, 2⟩ 2) := or_settled
example : (Neu.item 'a').Fair := by intro y h; simp [Neu.isMatch] at h; subst h; exact Nat.le_refl _
example : (∃ y ∈ ['a', 'b'], (Neu.item 'a').isMatch y = false) ∧ (Neu.item 'a').isMatch 'a' = true := by
  exact ⟨⟨'b', by decide, by decide⟩, by decide⟩
-- nested parentheses on a line: what follows the line does not matter
example (x : List Char) : Runs GP none (['(', '(', ')', ')'] ++ '\n' :: [] ++ x) parens 0 (.ok ⟨0, 4⟩ 4) :=
  (C88_terminator '\n' (fun _ h => by cases h)
    (all_parens (by exact trivial) (by simp [StopsAt]) (by exact trivial) (by simp [StopsAt]) (by exact trivial))
    ['(', '(', ')', ')'] [] 0 ⟨[], _, rfl, rfl⟩ _ ⟨12, by decide⟩).2.1 x
-- in a context that skips spaces
example : ∀ q, some spaces = some q → All GP (StopsAt GP none '\n') q := by
  intro q h; cases h; exact all_spaces (by simp [StopsAt, spaces, Neu.isMatch, Cond.Plain])
-- building
theorem con_settled : SettledC (σ := Unit) G0 extractH none ['c', 'd', 'x'] (.lit ['c', 'd']) () 0
    (.ok (.base ['c', 'd']) () 2) := by
  refine ⟨1, ?_⟩
  have h := lit_settled (G := (G0 : Rules Char (List Char))) (d := ['c', 'd', 'x']) (l := ['c', 'd']) (o := 0) (r := .ok ⟨0, 2⟩ 2) 0
    ⟨['c', 'd', 'x'], rfl, .inl (by decide)⟩ (by decide)
  rw [conS]; dsimp only
  rw [if_pos]
  · simp only [conStep, matWith]; rw [h]; rfl
  · intro s o1 hs x
    have hs : parseS G0 1 none _ _ _ = _ := hs
    rw [h] at hs; cases hs
    exact C88_extract (t := ['c', 'd']) (by decide) x
example (x : List Char) : Constructs (σ := Unit) G0 extractH none (['c', 'd', 'x'] ++ x) (.lit ['c', 'd']) () 0
    (.ok (.base ['c', 'd']) () 2) := C88_more_text_construct _ _ _ _ con_settled x
-- a search: one settled miss, then a settled hit
example (x : List Char) : Finds (β := Nat) G0 none (['x', 'a', 'b'] ++ x) (.lit ['a', 'b']) .span 0
    (.ok (some ⟨1, 2⟩) 3) := by
  refine C88_find _ (all_lit (by exact trivial)) 0 1 3 ⟨1, 2⟩ (by decide) (by decide) (fun j h1 h2 => ?_)
    ⟨1, lit_settled 0 ⟨['a', 'b'], rfl, .inl (by decide)⟩ (by decide)⟩ (by decide) x
  have : j = 0 := by omega
  subst this
  exact .inl ⟨.literal, 0, 1, lit_settled 0 ⟨['x', 'a', 'b'], rfl, .inr (by decide)⟩ (by decide)⟩
-- `[]` is a document; what follows it does not matter
example {ν : Type} (cv : JConv ν) (x : List UInt8) (v : Val (JVal ν)) (h : JsonParse cv [91, 93] (.ok v () 2)) :
    JsonParse cv ([91, 93] ++ x) (.ok v () 2) := (C88_json cv _ x v 2).1 h

end Neure
