import Verif.JsonCorrect
/-!
# The JSON example returns on every input

Helper lemmas for C49: constructing the grammar gives a value or an error.
-/

namespace Neure

set_option linter.unusedSectionVars false
set_option linter.unusedSimpArgs false

section
variable {ν : Type} {G : Rules UInt8 (JVal ν)}

/-- Constructing `p` on a remaining input of length at most `n` gives a value or
an error. -/
def ConTot (G : Rules UInt8 (JVal ν)) (p : Pat UInt8 (JVal ν)) (n : Nat) : Prop :=
  ∀ pre rest, rest.length ≤ n →
    (∃ v o', Constructs G jsonH none (pre ++ rest) p () (blen pre) (.ok v () o')) ∨
    (∃ e o', Constructs G jsonH none (pre ++ rest) p () (blen pre) (.err e () o'))

/-- The same for matching. -/
def RunTot (G : Rules UInt8 (JVal ν)) (p : Pat UInt8 (JVal ν)) : Prop :=
  ∀ pre rest, (∃ s o', Runs G none (pre ++ rest) p (blen pre) (.ok s o')) ∨
    (∃ e o', Runs G none (pre ++ rest) p (blen pre) (.err e o'))

variable {a b c : Pat UInt8 (JVal ν)} {n : Nat} {A C : List UInt8 → List UInt8 → Prop}
  {B B' : List UInt8 → List UInt8 → Val (JVal ν) → Prop}

theorem lit_tot (l : List UInt8) : RunTot G (.lit l) := by
  intro pre rest
  by_cases h : ∃ t, rest = l ++ t
  · obtain ⟨t, rfl⟩ := h
    exact .inl ⟨_, _, lit_run pre l t⟩
  · exact .inr ⟨_, _, lit_err pre rest l h⟩

theorem ws_tot : RunTot G jWs := fun pre rest => .inl ⟨_, _, (many0_run _ _ _ _).mpr rfl⟩

theorem or_tot (h1 : ConTot G a n) (h2 : ConTot G b n) : ConTot G (.or a b) n := by
  intro pre rest hn
  rcases h1 pre rest hn with ⟨v, o', h⟩ | ⟨e, o', h⟩
  · exact .inl ⟨v, o', ((C06_or_construct _ _ _ _).1 _ _ _).mpr (.inl h)⟩
  · rcases h2 pre rest hn with ⟨v, o2, h'⟩ | ⟨e, o2, h'⟩
    · exact .inl ⟨v, o2, ((C06_or_construct _ _ _ _).1 _ _ _).mpr (.inr ⟨_, _, _, h, h'⟩)⟩
    · exact .inr ⟨e, _, ((C06_or_construct _ _ _ _).2.1 _ _ _).mpr ⟨rfl, _, _, _, _, h, h'⟩⟩

theorem pre_tot (h1 : RunTot G a) (ha : RunOnly G a A) (h2 : ConTot G b n) : ConTot G (.pre a b) n := by
  intro pre rest hn
  rcases h1 pre rest with ⟨s, o', h⟩ | ⟨e, o', h⟩
  · obtain ⟨t, post, rfl, rfl, _⟩ := ha _ _ _ _ h
    rcases h2 (pre ++ t) post (by simp only [List.length_append] at hn; omega) with ⟨v, o2, h'⟩ | ⟨e, o2, h'⟩
      <;> rw [List.append_assoc] at h'
    · exact .inl ⟨v, o2, ((C08_prefix_construct _ _ _ _).1 _ _ _).mpr ⟨_, _, h, h'⟩⟩
    · exact .inr ⟨e, _, ((C08_prefix_construct _ _ _ _).2 _ _ _).mpr ⟨rfl, .inr ⟨_, _, _, h, h'⟩⟩⟩
  · exact .inr ⟨e, _, ((C08_prefix_construct _ _ _ _).2 _ _ _).mpr ⟨rfl, .inl ⟨rfl, _, h⟩⟩⟩

theorem suf_tot (h1 : ConTot G a n) (ha : ConOnly G a n B) (h2 : RunTot G b) : ConTot G (.suf a b) n := by
  intro pre rest hn
  rcases h1 pre rest hn with ⟨s, o', h⟩ | ⟨e, o', h⟩
  · obtain ⟨t, post, rfl, rfl, _⟩ := ha _ _ _ _ hn h
    rcases h2 (pre ++ t) post with ⟨v, o2, h'⟩ | ⟨e, o2, h'⟩
      <;> rw [List.append_assoc] at h'
    · exact .inl ⟨_, o2, ((C08_suffix_construct _ _ _ _).1 _ _ _).mpr ⟨_, _, h, h'⟩⟩
    · exact .inr ⟨e, _, ((C08_suffix_construct _ _ _ _).2 _ _ _).mpr ⟨rfl, .inr ⟨_, _, _, h, h'⟩⟩⟩
  · exact .inr ⟨e, _, ((C08_suffix_construct _ _ _ _).2 _ _ _).mpr ⟨rfl, .inl ⟨_, h⟩⟩⟩

/-- The opening delimiter is one byte, so the inside is shorter. -/
theorem enclose_tot {l : UInt8} (h2 : ConTot G b n) (hb : ConOnly G b n B) (h3 : RunTot G c) :
    ConTot G (.enclose (.lit [l]) b c) (n + 1) := by
  intro pre rest hn
  rcases lit_tot [l] pre rest with ⟨s, o', h⟩ | ⟨e, o', h⟩
  · obtain ⟨t, post, rfl, rfl, rfl⟩ := lit_only [l] _ _ _ _ h
    have hn' : post.length ≤ n := by
      simp only [List.length_append, List.length_cons, List.length_nil] at hn; omega
    rcases h2 (pre ++ [l]) post hn' with ⟨v, o2, h'⟩ | ⟨e, o2, h'⟩
    · obtain ⟨u, q, rfl, rfl, _⟩ := hb _ _ _ _ hn' h'
      rw [List.append_assoc] at h'
      rcases h3 (pre ++ [l] ++ u) q with ⟨s3, o3, h''⟩ | ⟨e, o3, h''⟩
        <;> rw [List.append_assoc, List.append_assoc pre] at h''
      · exact .inl ⟨v, o3, ((C08_enclose_construct _ _ _ _ _).1 _ _ _).mpr ⟨_, _, _, _, h, h', h''⟩⟩
      · exact .inr ⟨e, _, ((C08_enclose_construct _ _ _ _ _).2 _ _ _).mpr
          ⟨rfl, .inr (.inr ⟨_, _, _, _, _, h, h', h''⟩)⟩⟩
    · rw [List.append_assoc] at h'
      exact .inr ⟨e, _, ((C08_enclose_construct _ _ _ _ _).2 _ _ _).mpr
        ⟨rfl, .inr (.inl ⟨_, _, _, h, h'⟩)⟩⟩
  · exact .inr ⟨e, _, ((C08_enclose_construct _ _ _ _ _).2 _ _ _).mpr ⟨rfl, .inl ⟨rfl, _, h⟩⟩⟩

theorem ConTot.mono {m : Nat} (h : ConTot G a m) (hm : n ≤ m) : ConTot G a n :=
  fun pre rest hn => h pre rest (by omega)

theorem sepOnce_tot (h1 : ConTot G a n) (ha : ConOnly G a n B) (h2 : RunTot G b) (hb : RunOnly G b A)
    (h3 : ConTot G c n) : ConTot G (.sepOnce a b c) n := by
  intro pre rest hn
  rcases h1 pre rest hn with ⟨v, o', h⟩ | ⟨e, o', h⟩
  · obtain ⟨t, post, rfl, rfl, _⟩ := ha _ _ _ _ hn h
    simp only [List.length_append] at hn
    rcases h2 (pre ++ t) post with ⟨s, o2, h'⟩ | ⟨e, o2, h'⟩
    · obtain ⟨u, q, rfl, rfl, _⟩ := hb _ _ _ _ h'
      simp only [List.length_append] at hn
      rw [List.append_assoc] at h'
      rcases h3 (pre ++ t ++ u) q (by omega) with ⟨v3, o3, h''⟩ | ⟨e, o3, h''⟩
        <;> rw [List.append_assoc, List.append_assoc pre] at h''
      · exact .inl ⟨_, o3, ((C08_sepOnce_construct _ _ _ _ _).1 _ _ _).mpr
          ⟨_, _, _, _, _, _, rfl, h, h', h''⟩⟩
      · exact .inr ⟨e, _, ((C08_sepOnce_construct _ _ _ _ _).2 _ _ _).mpr
          ⟨rfl, .inr (.inr ⟨_, _, _, _, _, _, h, h', h''⟩)⟩⟩
    · rw [List.append_assoc] at h'
      exact .inr ⟨e, _, ((C08_sepOnce_construct _ _ _ _ _).2 _ _ _).mpr
        ⟨rfl, .inr (.inl ⟨_, _, _, h, h'⟩)⟩⟩
  · exact .inr ⟨e, _, ((C08_sepOnce_construct _ _ _ _ _).2 _ _ _).mpr ⟨rfl, .inl ⟨_, h⟩⟩⟩

theorem map_tot {f : Val (JVal ν) → Out (Val (JVal ν))} (h : ConTot G a n) (ha : ConOnly G a n B)
    (hf : ∀ t post v, B t post v → f v ≠ .panic) : ConTot G (.map a f) n := by
  intro pre rest hn
  rcases h pre rest hn with ⟨v, o', h⟩ | ⟨e, o', h⟩
  · obtain ⟨t, post, _, _, hB⟩ := ha _ _ _ _ hn h
    cases hv : f v with
    | ok w => exact .inl ⟨w, o', ((C52_map_construct _ _ _ _).1 _ _ _).mpr ⟨v, h, hv⟩⟩
    | err e => exact .inr ⟨e, o', ((C52_map_construct _ _ _ _).2.1 _ _ _).mpr (.inr ⟨v, h, hv⟩)⟩
    | panic => exact absurd hv (hf _ _ _ hB)
  · exact .inr ⟨e, o', ((C52_map_construct _ _ _ _).2.1 _ _ _).mpr (.inl h)⟩

/-- A list of elements and commas: every round takes at least the comma. -/
theorem list_tot {m : Nat} (h : ConTot G a n) (ha : ConOnly G a n B) :
    ConTot G (.sep a (.lit [44]) true m) n := by
  have key : ∀ k pre rest, rest.length ≤ k → k ≤ n →
      ∃ vs x o', BuiltList G jsonH none (pre ++ rest) a (.lit [44]) () (blen pre) vs x () o' := by
    intro k
    induction k with
    | zero =>
      intro pre rest hk hn
      have : rest = [] := List.eq_nil_of_length_eq_zero (by omega)
      subst this
      rcases h pre [] (by simp) with ⟨v, o', h1⟩ | ⟨e, o', h1⟩
      · obtain ⟨t, post, ht, rfl, _⟩ := ha _ _ _ _ (by simp) h1
        obtain ⟨rfl, rfl⟩ := List.append_eq_nil_iff.mp ht.symm
        rw [List.append_nil] at *
        have := lit_err (β := JVal ν) (G := G) pre [] [44] (by simp)
        rw [List.append_nil] at this
        exact ⟨[], some v, _, (), _, .nil _ _, _, _, h1, this⟩
      · exact ⟨[], none, o', (), _, .nil _ _, e, h1⟩
    | succ k ih =>
      intro pre rest hk hn
      rcases h pre rest (by omega) with ⟨v, o', h1⟩ | ⟨e, o', h1⟩
      · obtain ⟨t, post, rfl, rfl, _⟩ := ha _ _ _ _ (by omega) h1
        rcases lit_tot (G := G) [44] (pre ++ t) post with ⟨s, o2, h2⟩ | ⟨e, o2, h2⟩
        · obtain ⟨u, q, rfl, rfl, rfl⟩ := lit_only [44] _ _ _ _ h2
          simp only [List.length_append, List.length_cons, List.length_nil] at hk
          obtain ⟨vs, x, o3, ⟨⟩, o4, hb, hx⟩ := ih (pre ++ t ++ [44]) q (by omega) (by omega)
          have hd : (pre ++ t ++ [44]) ++ q = pre ++ (t ++ ([44] ++ q)) := by simp
          rw [hd] at hb hx
          rw [List.append_assoc] at h2
          exact ⟨v :: vs, x, o3, (), o4, .cons h1 h2 hb, hx⟩
        · rw [List.append_assoc] at h2
          exact ⟨[], some v, o2, (), _, .nil _ _, _, e, h1, h2⟩
      · exact ⟨[], none, o', (), _, .nil _ _, e, h1⟩
  intro pre rest hn
  obtain ⟨vs, x, o', hb⟩ := key _ pre rest hn (Nat.le_refl _)
  cases x with
  | none =>
    by_cases hm : m ≤ vs.length
    · exact .inl ⟨_, o', ((C16_sep_construct _ _ _ _ _ _).1 _ _ _).mpr ⟨vs, none, hb, .inl ⟨rfl, hm, rfl⟩⟩⟩
    · exact .inr ⟨_, _, ((C16_sep_construct _ _ _ _ _ _).2 _ _ _).mpr
        ⟨rfl, rfl, vs, none, o', hb, .inl ⟨rfl, by omega⟩⟩⟩
  | some y =>
    by_cases hm : m ≤ vs.length + 1
    · exact .inl ⟨_, o', ((C16_sep_construct _ _ _ _ _ _).1 _ _ _).mpr
        ⟨vs, some y, hb, .inr (.inl ⟨y, rfl, rfl, hm, rfl⟩)⟩⟩
    · exact .inr ⟨_, _, ((C16_sep_construct _ _ _ _ _ _).2 _ _ _).mpr
        ⟨rfl, rfl, vs, some y, o', hb, .inr (.inl ⟨by simp, rfl, by omega⟩)⟩⟩

theorem lit_con_tot (l : List UInt8) (n : Nat) (w : Val (JVal ν)) :
    ConTot G (.map (.lit l) fun _ => .ok w) n := by
  intro pre rest _
  by_cases h : ∃ t, rest = l ++ t
  · exact .inl ⟨w, _, (lit_map_ok l w pre rest _ _).mpr ⟨h, rfl, rfl⟩⟩
  · exact .inr ⟨_, _, lit_map_fails l _ pre rest h⟩

theorem key_tot (n : Nat) : ConTot G (.many1 jKeyUnit .empty) n := by
  intro pre rest _
  have hH := jsonH_slice (ν := ν) pre (rest.takeWhile jKeyUnit.isMatch) (rest.dropWhile jKeyUnit.isMatch)
    (blen (pre ++ rest.takeWhile jKeyUnit.isMatch)) ()
  rw [List.takeWhile_append_dropWhile] at hH
  have hr := (many1_run (β := JVal ν) (G := G) jKeyUnit pre rest _).mpr rfl
  split at hr
  · exact .inr ⟨_, _, ((C52_primitive_construct (.many1 jKeyUnit .empty) trivial _ _).2.1 _ _ _).mpr
      (.inl ⟨hr, rfl⟩)⟩
  · exact .inl ⟨_, _, ((C52_primitive_construct (.many1 jKeyUnit .empty) trivial _ _).1 _ _ _).mpr
      ⟨_, _, hr, hH, rfl⟩⟩

theorem str_tot (cv : JConv ν) (n : Nat) : ConTot G (jStr cv) n := by
  have hbody : ∀ n, ConOnly G (escapeStrval 34 92 jEscape) n fun _ _ v => ∃ l, v = .base (.slice l) := by
    intro n pre rest v o' _ h
    rw [escapeStrval, (C52_pat_construct _ _ _).1] at h
    obtain ⟨s, b, h, hb, rfl⟩ := h
    have hr := (str_body_run _ _ _).mp h
    clear h
    obtain ⟨q, hq, _⟩ := C48_body_is_maximal 34 92 jEscape.isMatch rest
    generalize strBody 34 92 jEscape.isMatch rest = t at *
    subst hq
    cases hr
    rw [jsonH_slice] at hb
    cases hb
    exact ⟨t, q, rfl, rfl, t, rfl⟩
  have tot : ∀ n, ConTot G (escapeStrval 34 92 jEscape) n := by
    intro n pre rest _
    have hr := (str_body_run (ν := ν) (G := G) pre rest _).mpr rfl
    obtain ⟨q, hq, _⟩ := C48_body_is_maximal 34 92 jEscape.isMatch rest
    generalize strBody 34 92 jEscape.isMatch rest = t at *
    subst hq
    exact .inl ⟨_, _, by
      rw [escapeStrval, (C52_pat_construct _ _ _).1]
      exact ⟨_, _, hr, jsonH_slice _ _ _ _ _, rfl⟩⟩
  refine map_tot ((enclose_tot (tot n) (hbody n) (lit_tot [34])).mono (Nat.le_succ n))
    (enclose_only (lit_only [34]) (hbody n) (lit_only [34])) ?_
  rintro t post v ⟨_, _, _, _, _, ⟨l, rfl⟩, _⟩
  simp only
  cases cv.str l <;> simp

variable (cv : JConv ν)

theorem num_tot (n : Nat) : ConTot G (jNum cv) n := by
  intro pre rest hn
  obtain ⟨post, hp⟩ := num_dec rest
  have hH := jsonH_slice (ν := ν) pre (numOf rest) post (blen (pre ++ numOf rest)) ()
  rw [← hp] at hH
  have hr := (num_text_run (ν := ν) (G := G) pre rest _).mpr rfl
  split at hr
  · exact .inr ⟨_, _, by
      rw [jNum, (C52_map_construct _ _ _ _).2.1]
      left
      rw [(C52_pat_construct _ _ _).2.1]
      exact .inl ⟨hr, rfl⟩⟩
  · have hc : Constructs G jsonH none (pre ++ rest) (.pat (jNumText (ν := ν))) () (blen pre)
        (.ok (.base (.slice (numOf rest))) () (blen (pre ++ numOf rest))) := by
      rw [(C52_pat_construct _ _ _).1]
      exact ⟨_, _, hr, hH, rfl⟩
    cases hd : cv.num (numOf rest) with
    | ok x => exact .inl ⟨.base (.json (.num x)), _, by
        rw [jNum, (C52_map_construct _ _ _ _).1]
        exact ⟨_, hc, by simp [hd]⟩⟩
    | error e => exact .inr ⟨e, _, by
        rw [jNum, (C52_map_construct _ _ _ _).2.1]
        exact .inr ⟨_, hc, by simp [hd]⟩⟩

/-- The recursive grammar, by induction on the length of the remaining input. -/
theorem doc_tot (n : Nat) : ConTot (JR cv) (.cell 0) n := by
  induction n with
  | zero =>
    intro pre rest hn
    have : rest = [] := List.eq_nil_of_length_eq_zero (by omega)
    subst this
    have he : ConErr (JR cv) (.cell 0) pre [] :=
      cell_err cv (or_err (map_err (enclose_err (by simp))) (map_err (enclose_err (by simp))))
    obtain ⟨e, he⟩ := he
    exact .inr ⟨e, _, he⟩
  | succ n ih =>
    have cores : ConTot (JR cv) (jCore cv) n :=
      or_tot (num_tot cv n) (or_tot (str_tot cv n) (or_tot (lit_con_tot _ n _)
        (or_tot (lit_con_tot _ n _) (or_tot (lit_con_tot _ n _) ih))))
    have hcore : ConOnly (JR cv) (jCore cv) n fun _ _ _ => True := by
      refine or_only ((num_only n).mono fun _ _ _ _ => trivial) (or_only ((str_only n).mono fun _ _ _ _ => trivial)
        (or_only ((lit_map_only _ _ n).mono fun _ _ _ _ => trivial)
        (or_only ((lit_map_only _ _ n).mono fun _ _ _ _ => trivial)
        (or_only ((lit_map_only _ _ n).mono fun _ _ _ _ => trivial)
        ((doc_only cv n).mono fun _ _ _ _ => trivial)))))
    have ele : ConTot (JR cv) (jEle cv) n := pre_tot ws_tot ws_only (suf_tot cores hcore ws_tot)
    have keyE : ConTot (JR cv) (.enclose (.lit [34]) (.many1 jKeyUnit .empty) (.lit [34])) n :=
      (enclose_tot (key_tot n) (key_unit_only n) (lit_tot [34])).mono (Nat.le_succ n)
    have keyO : ConOnly (JR cv) (.enclose (.lit [34]) (.many1 jKeyUnit .empty) (.lit [34])) n _ :=
      enclose_only (lit_only [34]) (key_unit_only n) (lit_only [34])
    have key : ConTot (JR cv) jKey n := pre_tot ws_tot ws_only (suf_tot keyE keyO ws_tot)
    have member : ConTot (JR cv) (jMember cv) n :=
      sepOnce_tot key (pre_only ws_only (suf_only keyO ws_only)) (lit_tot [58]) (lit_only [58]) ele
    have objs : ConTot (JR cv) (.or (jObject cv) (jArray cv)) (n + 1) := by
      refine or_tot ?_ ?_
      · refine map_tot (enclose_tot (list_tot member (member_only cv (doc_only cv n)))
          (members_only cv n) (lit_tot [125])) (open_only cv _ (members_only cv n) (lit_only [125])) ?_
        rintro t post v ⟨_, _, _, ⟨l, _, hl⟩, _⟩
        simp [hl]
      · refine map_tot (enclose_tot (list_tot ele (ele_only cv (doc_only cv n)))
          (elems_only cv n) (lit_tot [93])) (open_only cv _ (elems_only cv n) (lit_only [93])) ?_
        rintro t post v ⟨_, _, _, ⟨l, _, hl⟩, _⟩
        simp [hl]
    intro pre rest hn
    rcases objs pre rest hn with ⟨v, o', h⟩ | ⟨e, o', h⟩
    · exact .inl ⟨v, o', ((C52_rule_construct 0 _ _ _).1 _ rfl).mpr h⟩
    · exact .inr ⟨e, o', ((C52_rule_construct 0 _ _ _).1 _ rfl).mpr h⟩

end

end Neure
