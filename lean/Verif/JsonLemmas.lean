import Verif.Json
/-!
# Lemmas on the JSON grammar: what each part consumes
-/

namespace Neure

set_option linter.unusedSectionVars false
set_option linter.unusedSimpArgs false

theorem isWs_iff (x : UInt8) : isWs x = true ↔ x = 32 ∨ x = 9 ∨ x = 10 ∨ x = 12 ∨ x = 13 := by
  simp [isWs]

theorem isDigit_iff (x : UInt8) : isDigit x = true ↔ 48 ≤ x ∧ x ≤ 57 := by
  simp [isDigit]

theorem isAlpha_iff (x : UInt8) :
    isAlpha x = true ↔ (65 ≤ x ∧ x ≤ 90) ∨ (97 ≤ x ∧ x ≤ 122) := by
  simp [isAlpha]

theorem wsText_iff (t : List UInt8) : WsText t ↔ ∀ x ∈ t, isWs x = true := by
  simp only [WsText, isWs_iff]

theorem digits_iff (t : List UInt8) : Digits t ↔ t ≠ [] ∧ ∀ x ∈ t, isDigit x = true := by
  simp only [Digits, isDigit_iff]

theorem keyText_iff (t : List UInt8) :
    KeyText t ↔ t ≠ [] ∧ ∀ x ∈ t, isAlpha x = true ∨ isDigit x = true ∨ x = 95 := by
  simp only [KeyText, isDigit_iff, isAlpha_iff, or_assoc]

section Gen
variable {ι β σ : Type} [Item ι] {G : Rules ι β} {H : Handler ι β σ}

theorem lit_ok (pre rest l : List ι) (s : Span) (o' : Nat) :
    Runs (β := β) G none (pre ++ rest) (.lit l) (blen pre) (.ok s o') ↔
      (∃ t, rest = l ++ t) ∧ s = ⟨blen pre, blen l⟩ ∧ o' = blen (pre ++ l) := by
  rw [runs_plain, C12_literal pre rest l rfl]
  simp only [Res.ok.injEq, reduceCtorEq, and_false, or_false, blen_append]

theorem lit_err (pre rest l : List ι) (h : ¬ ∃ t, rest = l ++ t) :
    Runs (β := β) G none (pre ++ rest) (.lit l) (blen pre) (.err .literal (blen pre)) := by
  rw [runs_plain, C12_literal pre rest l rfl]
  exact .inr ⟨h, rfl⟩

theorem lit_run (pre l t : List ι) :
    Runs (β := β) G none (pre ++ (l ++ t)) (.lit l) (blen pre) (.ok ⟨blen pre, blen l⟩ (blen (pre ++ l))) :=
  (lit_ok _ _ _ _ _).mpr ⟨⟨t, rfl⟩, rfl, rfl⟩

theorem many0_run (u : Neu ι) (pre rest : List ι) (r : Res Span) :
    Runs (β := β) G none (pre ++ rest) (.many0 u .empty) (blen pre) r ↔
      r = .ok ⟨blen pre, blen (rest.takeWhile u.isMatch)⟩ (blen (pre ++ rest.takeWhile u.isMatch)) := by
  rw [runs_plain, C23_many0_takeWhile u pre rest rfl, blen_append]

theorem many1_run (u : Neu ι) (pre rest : List ι) (r : Res Span) :
    Runs (β := β) G none (pre ++ rest) (.many1 u .empty) (blen pre) r ↔
      r = if rest.takeWhile u.isMatch = [] then .err .many1 (blen pre) else
        .ok ⟨blen pre, blen (rest.takeWhile u.isMatch)⟩ (blen (pre ++ rest.takeWhile u.isMatch)) := by
  rw [runs_plain, C23_many1_takeWhile u pre rest rfl, blen_append]

/-- A run of accepted items followed by a rejected one. -/
theorem takeWhile_run {p : ι → Bool} {t rest : List ι} (ht : ∀ x ∈ t, p x = true)
    (hr : ∀ x b, rest = x :: b → p x = false) : (t ++ rest).takeWhile p = t := by
  induction t with
  | nil =>
    cases rest with
    | nil => rfl
    | cons x b => simp [List.takeWhile, hr x b rfl]
  | cons x t ih =>
    simp [List.takeWhile, ht x List.mem_cons_self]
    exact ih fun y hy => ht y (List.mem_cons_of_mem _ hy)

theorem takeWhile_split (p : ι → Bool) (l : List ι) :
    l = l.takeWhile p ++ l.dropWhile p ∧ (∀ x ∈ l.takeWhile p, p x = true) := by
  refine ⟨(List.takeWhile_append_dropWhile).symm, ?_⟩
  induction l with
  | nil => simp
  | cons y l ih =>
    intro x hx
    by_cases hy : p y = true
    · simp [List.takeWhile, hy] at hx
      rcases hx with rfl | hx
      · exact hy
      · exact ih x hx
    · simp [List.takeWhile, hy] at hx

end Gen

variable {ν : Type} {cv : JConv ν}

theorem blen_bytes (l : List UInt8) : blen l = l.length := by
  induction l with
  | nil => rfl
  | cons x l ih => rw [blen_cons, ih]; simp [Item.size]; omega

/-- The byte at the beginning of a text, if any, satisfies `P`. -/
def HeadIs (P : UInt8 → Prop) (l : List UInt8) : Prop := ∀ x b, l = x :: b → P x

/-! ## Numbers -/

/-- The sign at the beginning of a text. -/
def signOf : List UInt8 → List UInt8
  | x :: _ => if x = 43 ∨ x = 45 then [x] else []
  | [] => []

/-- The fraction at the beginning of a text. -/
def fracOf : List UInt8 → List UInt8
  | x :: l => if x = 46 ∧ l.takeWhile isDigit ≠ [] then 46 :: l.takeWhile isDigit else []
  | [] => []

theorem digitUnit (x : UInt8) : (Neu.range ⟨.incl 48, .incl 57⟩ : Neu UInt8).isMatch x = isDigit x := by
  rw [Bool.eq_iff_iff, (C22_unit_operators (.never) (.never) x).2.2.2.2.2.2.2.1]
  simp [isDigit, Bound.allowsFrom, Bound.allowsUpTo, Item.key, UInt8.le_iff_toNat_le]

theorem digitUnit' : (Neu.range ⟨.incl 48, .incl 57⟩ : Neu UInt8).isMatch = isDigit :=
  funext digitUnit

variable {G : Rules UInt8 (JVal ν)}

theorem sign_run (pre rest : List UInt8) (r : Res Span) :
    Runs G none (pre ++ rest) jSign (blen pre) r ↔
      r = .ok ⟨blen pre, blen (signOf rest)⟩ (blen (pre ++ signOf rest)) := by
  have key : Runs G none (pre ++ rest) jSign (blen pre)
      (.ok ⟨blen pre, blen (signOf rest)⟩ (blen (pre ++ signOf rest))) := by
    rw [runs_plain, jSign, (C23_opt_unit _ _ pre rest rfl).1]
    cases rest with
    | nil => right; simp [signOf]
    | cons x tl =>
      by_cases h : x = 43 ∨ x = 45
      · left
        refine ⟨x, tl, rfl, .inl ⟨?_, rfl⟩, ?_, ?_⟩
        · rcases h with rfl | rfl <;> rfl
        · simp [signOf, h]
        · simp [signOf, h]
      · right
        simp only [signOf, if_neg h, List.append_nil, blen_nil, and_self, and_true]
        rintro y t ⟨rfl, rfl⟩
        refine .inr ⟨?_, rfl⟩
        simp only [Neu.isMatch, Bool.false_or, Bool.or_eq_false_iff, decide_eq_false_iff_not]
        exact ⟨fun h' => h (.inl h'.symm), fun h' => h (.inr h'.symm)⟩
  exact ⟨fun h => h.unique key, fun h => h ▸ key⟩

theorem digit_run (pre rest : List UInt8) (r : Res Span) :
    Runs G none (pre ++ rest) jDigit (blen pre) r ↔
      r = if rest.takeWhile isDigit = [] then .err .many1 (blen pre) else
        .ok ⟨blen pre, blen (rest.takeWhile isDigit)⟩ (blen (pre ++ rest.takeWhile isDigit)) := by
  rw [jDigit, many1_run, digitUnit']

theorem hull_adj {a b c : Nat} : Hull ⟨a, b⟩ ⟨a + b, c⟩ ⟨a, b + c⟩ := by
  refine ⟨?_, ?_, ?_, ?_⟩ <;> dsimp only <;> omega

/-- Two texts matched one after the other. -/
theorem then_run {p q : Pat UInt8 (JVal ν)} {pre t1 t2 post : List UInt8}
    (h1 : Runs G none (pre ++ (t1 ++ (t2 ++ post))) p (blen pre) (.ok ⟨blen pre, blen t1⟩ (blen (pre ++ t1))))
    (h2 : Runs G none ((pre ++ t1) ++ (t2 ++ post)) q (blen (pre ++ t1))
      (.ok ⟨blen (pre ++ t1), blen t2⟩ (blen ((pre ++ t1) ++ t2)))) :
    Runs G none (pre ++ (t1 ++ (t2 ++ post))) (.thn p q) (blen pre)
      (.ok ⟨blen pre, blen (t1 ++ t2)⟩ (blen (pre ++ (t1 ++ t2)))) := by
  rw [runs_plain, (C08_then p q _).1]
  rw [List.append_assoc pre t1, List.append_assoc pre t1] at h2
  refine ⟨_, _, _, h1, h2, ?_⟩
  simp only [blen_append]
  exact hull_adj

theorem frac_run (pre rest : List UInt8) (r : Res Span) :
    Runs G none (pre ++ rest) (.or jDec .empty) (blen pre) r ↔
      r = .ok ⟨blen pre, blen (fracOf rest)⟩ (blen (pre ++ fracOf rest)) := by
  have key : Runs G none (pre ++ rest) (.or jDec .empty) (blen pre)
      (.ok ⟨blen pre, blen (fracOf rest)⟩ (blen (pre ++ fracOf rest))) := by
    have he : Runs G none (pre ++ rest) .empty (blen pre) (.ok ⟨blen pre, 0⟩ (blen pre)) := by
      rw [runs_plain, parses_iff, parseL_empty]
    have hd : ∀ r, Runs G none (pre ++ rest) jDec (blen pre) r ↔
        Runs G none (pre ++ rest) (.thn (.lit [46]) jDigit) (blen pre) r := by
      intro r; rw [runs_plain, jDec, parses_iff, parseL_pat, runs_iff]
    rw [runs_plain, (C06_or _ _ _).1]
    by_cases h : ∃ l, rest = 46 :: l
    · obtain ⟨l, rfl⟩ := h
      by_cases h2 : l.takeWhile isDigit = []
      · right
        simp only [fracOf, h2, ne_eq, not_true, and_false, if_false, blen_nil, List.append_nil]
        refine ⟨⟨.many1, blen pre, ?_⟩, he⟩
        rw [hd, runs_plain, (C08_then _ _ _).2.1]
        refine ⟨rfl, .inr ⟨_, _, blen (pre ++ [46]), lit_run pre [46] l, ?_⟩⟩
        have := (digit_run (G := G) (pre ++ [46]) l (.err .many1 (blen (pre ++ [46])))).mpr (by rw [if_pos h2])
        simpa using this
      · left
        simp only [fracOf, h2, ne_eq, not_false_eq_true, and_true, if_true]
        rw [hd]
        have hs := (takeWhile_split isDigit l).1
        have := (digit_run (G := G) (pre ++ [46]) l _).mpr (by rw [if_neg h2])
        rw [hs] at this
        have h3 := then_run (t1 := [46]) (h1 := lit_run pre [46] (l.takeWhile isDigit ++ l.dropWhile isDigit)) (h2 := by
          simpa only [← hs] using this)
        rw [← hs] at h3
        simpa using h3
    · right
      have hf : fracOf rest = [] := by
        cases rest with
        | nil => rfl
        | cons x l =>
          have : x ≠ 46 := fun h' => h ⟨l, by rw [h']⟩
          simp [fracOf, this]
      rw [hf, List.append_nil]
      refine ⟨⟨.literal, blen pre, ?_⟩, he⟩
      rw [hd, runs_plain, (C08_then _ _ _).2.1]
      refine ⟨rfl, .inl ⟨_, lit_err pre rest [46] ?_⟩⟩
      rintro ⟨t, ht⟩; exact h ⟨t, ht⟩
  exact ⟨fun h => h.unique key, fun h => h ▸ key⟩

/-- The numeral at the beginning of a text. -/
def numOf (rest : List UInt8) : List UInt8 :=
  let s := signOf rest
  let ds := (rest.drop s.length).takeWhile isDigit
  s ++ (ds ++ fracOf ((rest.drop s.length).drop ds.length))

theorem signOf_split (rest : List UInt8) : rest = signOf rest ++ rest.drop (signOf rest).length := by
  cases rest with
  | nil => rfl
  | cons x l => simp only [signOf]; split <;> simp

theorem drop_takeWhile (p : UInt8 → Bool) (l : List UInt8) :
    l.drop (l.takeWhile p).length = l.dropWhile p := by
  induction l with
  | nil => rfl
  | cons x l ih => by_cases h : p x = true <;> simp [List.takeWhile, List.dropWhile, h, ih]

theorem fracOf_split (l : List UInt8) : ∃ post, l = fracOf l ++ post := by
  cases l with
  | nil => exact ⟨[], rfl⟩
  | cons x l =>
    simp only [fracOf]
    split
    · next h =>
      refine ⟨l.dropWhile isDigit, ?_⟩
      rw [h.1, List.cons_append, ← (takeWhile_split isDigit l).1]
    · exact ⟨_, rfl⟩

theorem num_text_run (pre rest : List UInt8) (r : Res Span) :
    Runs G none (pre ++ rest) jNumText (blen pre) r ↔
      r = if (rest.drop (signOf rest).length).takeWhile isDigit = [] then .err .many1 (blen pre) else
        .ok ⟨blen pre, blen (numOf rest)⟩ (blen (pre ++ numOf rest)) := by
  have key : Runs G none (pre ++ rest) jNumText (blen pre)
      (if (rest.drop (signOf rest).length).takeWhile isDigit = [] then .err .many1 (blen pre) else
        .ok ⟨blen pre, blen (numOf rest)⟩ (blen (pre ++ numOf rest))) := by
    have hsp := signOf_split rest
    generalize hs : signOf rest = s at *
    generalize hr : rest.drop s.length = r1 at *
    have h1 := (sign_run (G := G) pre rest _).mpr rfl
    rw [hs] at h1
    have h2 := (digit_run (G := G) (pre ++ s) r1 _).mpr rfl
    split
    · next h =>
      rw [if_pos h] at h2
      rw [runs_plain, jNumText, (C08_then _ _ _).2.1]
      refine ⟨rfl, .inl ⟨blen pre, ?_⟩⟩
      rw [runs_plain, (C08_then _ _ _).2.1]
      refine ⟨rfl, .inr ⟨_, _, blen (pre ++ s), h1, ?_⟩⟩
      rw [List.append_assoc, ← hsp] at h2
      exact h2
    · next h =>
      rw [if_neg h] at h2
      obtain ⟨post, hp⟩ := fracOf_split (r1.drop (r1.takeWhile isDigit).length)
      have h3 := (frac_run (G := G) ((pre ++ s) ++ r1.takeWhile isDigit) (r1.drop (r1.takeWhile isDigit).length) _).mpr rfl
      have hn : numOf rest = s ++ (r1.takeWhile isDigit ++ fracOf (r1.drop (r1.takeWhile isDigit).length)) := by
        simp only [numOf, hs, hr]
      rw [hn]
      have h4 := (takeWhile_split isDigit r1).1
      rw [← drop_takeWhile] at h4
      generalize r1.takeWhile isDigit = ds at *
      generalize r1.drop ds.length = r2 at *
      generalize fracOf r2 = fr at *
      subst hp h4
      rw [hsp] at h1 ⊢
      have h12 := then_run (pre := pre) (t1 := s) (t2 := ds) (post := fr ++ post) h1 h2
      rw [← List.append_assoc s] at h12
      have := then_run (pre := pre) (t1 := s ++ ds) (t2 := fr) (post := post) h12 (by
        simpa only [List.append_assoc] using h3)
      rw [jNumText]
      simpa only [List.append_assoc] using this
  exact ⟨fun h => h.unique key, fun h => h ▸ key⟩


theorem num_dec (rest : List UInt8) : ∃ post, rest = numOf rest ++ post := by
  obtain ⟨post, hp⟩ := fracOf_split ((rest.drop (signOf rest).length).drop
    ((rest.drop (signOf rest).length).takeWhile isDigit).length)
  refine ⟨post, ?_⟩
  have h1 := signOf_split rest
  have h2 := (takeWhile_split isDigit (rest.drop (signOf rest).length)).1
  rw [← drop_takeWhile, hp] at h2
  simp only [numOf, List.append_assoc]
  rw [← h2]; exact h1

theorem numeral_numOf (rest : List UInt8)
    (h : (rest.drop (signOf rest).length).takeWhile isDigit ≠ []) : Numeral (numOf rest) := by
  refine ⟨_, _, _, rfl, ?_, (digits_iff _).2 ⟨h, (takeWhile_split _ _).2⟩, ?_⟩
  · cases rest with
    | nil => exact .inl rfl
    | cons x l =>
      simp only [signOf]
      split
      · next h => rcases h with rfl | rfl <;> simp
      · exact .inl rfl
  · generalize (rest.drop (signOf rest).length).drop _ = l
    cases l with
    | nil => exact .inl rfl
    | cons x l =>
      simp only [fracOf]
      split
      · next h => exact .inr ⟨_, rfl, (digits_iff _).2 ⟨h.2, (takeWhile_split _ _).2⟩⟩
      · exact .inl rfl

theorem isDigit_not {x : UInt8} (h : isDigit x = true) : x ≠ 43 ∧ x ≠ 45 ∧ x ≠ 46 := by
  refine ⟨?_, ?_, ?_⟩ <;> rintro rfl <;> revert h <;> decide

/-- A numeral that is not followed by a digit or a dot is taken as a whole. -/
theorem numOf_numeral {t post : List UInt8} (h : Numeral t)
    (hp : HeadIs (fun x => isDigit x = false ∧ x ≠ 46) post) :
    numOf (t ++ post) = t ∧
      ((t ++ post).drop (signOf (t ++ post)).length).takeWhile isDigit ≠ [] := by
  obtain ⟨s, ds, fr, rfl, hs, hds, hf⟩ := h
  obtain ⟨hd, hdd⟩ := (digits_iff _).1 hds
  simp only [digits_iff] at hf
  have hfp : ∀ x b, fr ++ post = x :: b → isDigit x = false := by
    intro x b he
    rcases hf with rfl | ⟨ds', rfl, _⟩
    · exact (hp x b he).1
    · cases he; decide
  have hsign : signOf (s ++ (ds ++ fr) ++ post) = s := by
    rcases hs with rfl | rfl | rfl
    · cases ds with
      | nil => exact absurd rfl hd
      | cons x l =>
        have := isDigit_not (hdd x List.mem_cons_self)
        simp [signOf, this]
    · simp [signOf]
    · simp [signOf]
  have hdrop : (s ++ (ds ++ fr) ++ post).drop s.length = ds ++ (fr ++ post) := by simp
  have htw : (ds ++ (fr ++ post)).takeWhile isDigit = ds := takeWhile_run hdd hfp
  have hfr : fracOf (fr ++ post) = fr := by
    rcases hf with rfl | ⟨ds', rfl, hn, hall⟩
    · cases post with
      | nil => rfl
      | cons x b => simp [fracOf, (hp x b rfl).2]
    · have : (ds' ++ post).takeWhile isDigit = ds' := takeWhile_run hall fun x b h => (hp x b h).1
      simp [fracOf, this, hn]
  refine ⟨?_, ?_⟩
  · simp only [numOf, hsign, hdrop, htw, List.drop_left', hfr]
  · rw [hsign, hdrop, htw]; exact hd

/-! ## Constructing the parts -/

/-- Constructing `p` at the beginning of `t` succeeds with `v` and takes exactly `t`. -/
def ConAt (G : Rules UInt8 (JVal ν)) (p : Pat UInt8 (JVal ν)) (pre t post : List UInt8) (v : Val (JVal ν)) : Prop :=
  Constructs G jsonH none (pre ++ (t ++ post)) p () (blen pre) (.ok v () (blen (pre ++ t)))

/-- Matching `p` at the beginning of `t` succeeds and takes exactly `t`. -/
def RunAt (G : Rules UInt8 (JVal ν)) (p : Pat UInt8 (JVal ν)) (pre t post : List UInt8) : Prop :=
  ∃ s, Runs G none (pre ++ (t ++ post)) p (blen pre) (.ok s (blen (pre ++ t)))

/-- Whenever constructing `p` succeeds on a text not longer than `n`, `P` holds
of the text taken, the text left and the value. -/
def ConOnly (G : Rules UInt8 (JVal ν)) (p : Pat UInt8 (JVal ν)) (n : Nat)
    (P : List UInt8 → List UInt8 → Val (JVal ν) → Prop) : Prop :=
  ∀ pre rest v o', rest.length ≤ n → Constructs G jsonH none (pre ++ rest) p () (blen pre) (.ok v () o') →
    ∃ t post, rest = t ++ post ∧ o' = blen (pre ++ t) ∧ P t post v

/-- The same for matching. -/
def RunOnly (G : Rules UInt8 (JVal ν)) (p : Pat UInt8 (JVal ν)) (P : List UInt8 → List UInt8 → Prop) : Prop :=
  ∀ pre rest s o', Runs G none (pre ++ rest) p (blen pre) (.ok s o') →
    ∃ t post, rest = t ++ post ∧ o' = blen (pre ++ t) ∧ P t post

theorem lit_at (l pre post : List UInt8) : RunAt G (.lit l) pre l post := ⟨_, lit_run pre l post⟩

theorem lit_only (l : List UInt8) : RunOnly G (.lit l) fun t _ => t = l := by
  intro pre rest s o' h
  obtain ⟨⟨t, rfl⟩, _, rfl⟩ := (lit_ok _ _ _ _ _).mp h
  exact ⟨l, t, rfl, rfl, rfl⟩

section Compose
variable {a b c : Pat UInt8 (JVal ν)} {pre t1 t2 t3 post : List UInt8} {v v2 : Val (JVal ν)}

theorem enclose_at (h1 : RunAt G a pre t1 (t2 ++ (t3 ++ post))) (h2 : ConAt G b (pre ++ t1) t2 (t3 ++ post) v)
    (h3 : RunAt G c ((pre ++ t1) ++ t2) t3 post) :
    ConAt G (.enclose a b c) pre (t1 ++ (t2 ++ t3)) post v := by
  unfold ConAt at *
  rw [(C08_enclose_construct _ _ _ _ _).1]
  obtain ⟨s1, h1⟩ := h1
  obtain ⟨s3, h3⟩ := h3
  simp only [List.append_assoc] at h1 h2 h3 ⊢
  exact ⟨s1, _, _, s3, h1, h2, h3⟩

theorem pre_at (h1 : RunAt G a pre t1 (t2 ++ post)) (h2 : ConAt G b (pre ++ t1) t2 post v) :
    ConAt G (.pre a b) pre (t1 ++ t2) post v := by
  unfold ConAt at *
  rw [(C08_prefix_construct _ _ _ _).1]
  obtain ⟨s1, h1⟩ := h1
  simp only [List.append_assoc] at h1 h2 ⊢
  exact ⟨s1, _, h1, h2⟩

theorem suf_at (h1 : ConAt G a pre t1 (t2 ++ post) v) (h2 : RunAt G b (pre ++ t1) t2 post) :
    ConAt G (.suf a b) pre (t1 ++ t2) post v := by
  unfold ConAt at *
  rw [(C08_suffix_construct _ _ _ _).1]
  obtain ⟨s1, h2⟩ := h2
  simp only [List.append_assoc] at h1 h2 ⊢
  exact ⟨s1, _, h1, h2⟩

theorem sepOnce_at (h1 : ConAt G a pre t1 (t2 ++ (t3 ++ post)) v) (h2 : RunAt G b (pre ++ t1) t2 (t3 ++ post))
    (h3 : ConAt G c ((pre ++ t1) ++ t2) t3 post v2) :
    ConAt G (.sepOnce a b c) pre (t1 ++ (t2 ++ t3)) post (.pair v v2) := by
  unfold ConAt at *
  rw [(C08_sepOnce_construct _ _ _ _ _).1]
  obtain ⟨s1, h2⟩ := h2
  simp only [List.append_assoc] at h1 h2 h3 ⊢
  exact ⟨v, _, _, s1, _, v2, rfl, h1, h2, h3⟩

theorem map_at {f : Val (JVal ν) → Out (Val (JVal ν))} (h : ConAt G a pre t1 post v) (hf : f v = .ok v2) :
    ConAt G (.map a f) pre t1 post v2 := by
  unfold ConAt at *
  rw [(C52_map_construct _ _ _ _).1]
  exact ⟨v, h, hf⟩

variable {n : Nat} {A C : List UInt8 → List UInt8 → Prop} {B B' : List UInt8 → List UInt8 → Val (JVal ν) → Prop}

theorem enclose_only (h1 : RunOnly G a A) (h2 : ConOnly G b n B) (h3 : RunOnly G c C) :
    ConOnly G (.enclose a b c) n fun t post v => ∃ t1 t2 t3, t = t1 ++ (t2 ++ t3) ∧
      A t1 (t2 ++ (t3 ++ post)) ∧ B t2 (t3 ++ post) v ∧ C t3 post := by
  intro pre rest v o' hn h
  rw [(C08_enclose_construct _ _ _ _ _).1] at h
  obtain ⟨s1, o1, o2, s2, r1, r2, r3⟩ := h
  obtain ⟨t1, p1, rfl, rfl, hA⟩ := h1 _ _ _ _ r1
  rw [← List.append_assoc] at r2 r3
  obtain ⟨t2, p2, rfl, rfl, hB⟩ := h2 _ _ _ _ (by simp only [List.length_append] at hn; omega) r2
  rw [← List.append_assoc] at r3
  obtain ⟨t3, p3, rfl, rfl, hC⟩ := h3 _ _ _ _ r3
  exact ⟨_, p3, by simp only [List.append_assoc], by simp only [List.append_assoc], t1, t2, t3, rfl, hA, hB, hC⟩

theorem pre_only (h1 : RunOnly G a A) (h2 : ConOnly G b n B) :
    ConOnly G (.pre a b) n fun t post v => ∃ t1 t2, t = t1 ++ t2 ∧ A t1 (t2 ++ post) ∧ B t2 post v := by
  intro pre rest v o' hn h
  rw [(C08_prefix_construct _ _ _ _).1] at h
  obtain ⟨s1, o1, r1, r2⟩ := h
  obtain ⟨t1, p1, rfl, rfl, hA⟩ := h1 _ _ _ _ r1
  rw [← List.append_assoc] at r2
  obtain ⟨t2, p2, rfl, rfl, hB⟩ := h2 _ _ _ _ (by simp only [List.length_append] at hn; omega) r2
  exact ⟨_, p2, by simp only [List.append_assoc], by simp only [List.append_assoc], t1, t2, rfl, hA, hB⟩

theorem suf_only (h1 : ConOnly G a n B) (h2 : RunOnly G b A) :
    ConOnly G (.suf a b) n fun t post v => ∃ t1 t2, t = t1 ++ t2 ∧ B t1 (t2 ++ post) v ∧ A t2 post := by
  intro pre rest v o' hn h
  rw [(C08_suffix_construct _ _ _ _).1] at h
  obtain ⟨s1, o1, r1, r2⟩ := h
  obtain ⟨t1, p1, rfl, rfl, hA⟩ := h1 _ _ _ _ hn r1
  rw [← List.append_assoc] at r2
  obtain ⟨t2, p2, rfl, rfl, hB⟩ := h2 _ _ _ _ r2
  exact ⟨_, p2, by simp only [List.append_assoc], by simp only [List.append_assoc], t1, t2, rfl, hA, hB⟩

theorem sepOnce_only (h1 : ConOnly G a n B) (h2 : RunOnly G b A) (h3 : ConOnly G c n B') :
    ConOnly G (.sepOnce a b c) n fun t post v => ∃ t1 t2 t3 v1 v2, t = t1 ++ (t2 ++ t3) ∧ v = .pair v1 v2 ∧
      B t1 (t2 ++ (t3 ++ post)) v1 ∧ A t2 (t3 ++ post) ∧ B' t3 post v2 := by
  intro pre rest v o' hn h
  rw [(C08_sepOnce_construct _ _ _ _ _).1] at h
  obtain ⟨v1, ⟨⟩, o1, s, o2, v2, rfl, r1, r2, r3⟩ := h
  obtain ⟨t1, p1, rfl, rfl, hA⟩ := h1 _ _ _ _ hn r1
  rw [← List.append_assoc] at r2 r3
  obtain ⟨t2, p2, rfl, rfl, hB⟩ := h2 _ _ _ _ r2
  rw [← List.append_assoc] at r3
  obtain ⟨t3, p3, rfl, rfl, hC⟩ := h3 _ _ _ _ (by simp only [List.length_append] at hn; omega) r3
  exact ⟨_, p3, by simp only [List.append_assoc], by simp only [List.append_assoc], t1, t2, t3, v1, v2, rfl, rfl, hA, hB, hC⟩

theorem or_only (h1 : ConOnly G a n B) (h2 : ConOnly G b n B) : ConOnly G (.or a b) n B := by
  intro pre rest v o' hn h
  rw [(C06_or_construct _ _ _ _).1] at h
  rcases h with h | ⟨e, ⟨⟩, o1, _, h⟩
  · exact h1 _ _ _ _ hn h
  · exact h2 _ _ _ _ hn h

theorem map_only {f : Val (JVal ν) → Out (Val (JVal ν))} (h1 : ConOnly G a n B) :
    ConOnly G (.map a f) n fun t post v => ∃ v1, B t post v1 ∧ f v1 = .ok v := by
  intro pre rest v o' hn h
  rw [(C52_map_construct _ _ _ _).1] at h
  obtain ⟨v1, h, hf⟩ := h
  obtain ⟨t, post, rfl, rfl, hB⟩ := h1 _ _ _ _ hn h
  exact ⟨t, post, rfl, rfl, v1, hB, hf⟩

theorem ConOnly.mono (h : ConOnly G a n B) (hB : ∀ t post v, B t post v → B' t post v) : ConOnly G a n B' := by
  intro pre rest v o' hn h'
  obtain ⟨t, post, rfl, rfl, hB'⟩ := h _ _ _ _ hn h'
  exact ⟨t, post, rfl, rfl, hB _ _ _ hB'⟩

end Compose

theorem jsonH_slice (pre t post : List UInt8) (o : Nat) (st : Unit) :
    (jsonH (ν := ν)) (pre ++ (t ++ post)) o ⟨blen pre, blen t⟩ st = (.ok (.slice t), st) := by
  have : origSub (pre ++ (t ++ post)) (blen pre) (blen t) = .ok t :=
    origSub_ok.mpr ⟨pre, post, by simp, rfl, rfl⟩
  simp [jsonH, this]

/-- Constructing a mapped literal. -/
theorem lit_map_ok (l : List UInt8) (w : Val (JVal ν)) (pre rest : List UInt8) (v : Val (JVal ν)) (o' : Nat) :
    Constructs G jsonH none (pre ++ rest) (.map (.lit l) fun _ => .ok w) () (blen pre) (.ok v () o') ↔
      (∃ t, rest = l ++ t) ∧ v = w ∧ o' = blen (pre ++ l) := by
  rw [(C52_map_construct _ _ _ _).1]
  constructor
  · rintro ⟨v', h, hw⟩
    rw [(C52_primitive_construct (.lit l) trivial _ _).1] at h
    obtain ⟨s, b, h, _, _⟩ := h
    obtain ⟨h1, _, h2⟩ := (lit_ok _ _ _ _ _).mp h
    exact ⟨h1, (Out.ok.inj hw).symm, h2⟩
  · rintro ⟨⟨t, rfl⟩, rfl, rfl⟩
    refine ⟨.base (.slice l), ?_, rfl⟩
    rw [(C52_primitive_construct (.lit l) trivial _ _).1]
    exact ⟨_, _, lit_run pre l t, jsonH_slice pre l t _ _, rfl⟩

theorem lit_map_fails (l : List UInt8) (f : Val (JVal ν) → Out (Val (JVal ν))) (pre rest : List UInt8)
    (h : ¬ ∃ t, rest = l ++ t) :
    Constructs G jsonH none (pre ++ rest) (.map (.lit l) f) () (blen pre) (.err .literal () (blen pre)) := by
  rw [(C52_map_construct _ _ _ _).2.1]
  left
  rw [(C52_primitive_construct (.lit l) trivial _ _).2.1]
  exact .inl ⟨lit_err pre rest l h, rfl⟩

theorem num_ok (pre rest : List UInt8) (v : Val (JVal ν)) (o' : Nat) :
    Constructs G jsonH none (pre ++ rest) (jNum cv) () (blen pre) (.ok v () o') ↔
      (rest.drop (signOf rest).length).takeWhile isDigit ≠ [] ∧
      ∃ x, cv.num (numOf rest) = .ok x ∧ v = .base (.json (.num x)) ∧ o' = blen (pre ++ numOf rest) := by
  rw [jNum, (C52_map_construct _ _ _ _).1]
  obtain ⟨post, hpost⟩ := num_dec rest
  have hH := jsonH_slice (ν := ν) pre (numOf rest) post (blen (pre ++ numOf rest)) ()
  rw [← hpost] at hH
  constructor
  · rintro ⟨v', h, hw⟩
    rw [(C52_pat_construct _ _ _).1] at h
    obtain ⟨s, b, h, hb, rfl⟩ := h
    have h := (num_text_run _ _ _).mp h
    split at h
    · cases h
    · next hn =>
      cases h
      rw [hH] at hb
      cases hb
      dsimp only at hw
      split at hw
      · next x hx => exact ⟨hn, x, hx, (Out.ok.inj hw).symm, rfl⟩
      · cases hw
  · rintro ⟨hn, x, hx, rfl, rfl⟩
    refine ⟨.base (.slice (numOf rest)), ?_, by simp [hx]⟩
    rw [(C52_pat_construct _ _ _).1]
    exact ⟨_, _, (num_text_run _ _ _).mpr (by rw [if_neg hn]), hH, rfl⟩

theorem num_fails (pre rest : List UInt8) (h : HeadIs (fun x => isDigit x = false ∧ x ≠ 43 ∧ x ≠ 45) rest) :
    Constructs G jsonH none (pre ++ rest) (jNum cv) () (blen pre) (.err .many1 () (blen pre)) := by
  rw [jNum, (C52_map_construct _ _ _ _).2.1]
  left
  rw [(C52_pat_construct _ _ _).2.1]
  refine .inl ⟨(num_text_run _ _ _).mpr ?_, rfl⟩
  rw [if_pos]
  cases rest with
  | nil => rfl
  | cons x l =>
    obtain ⟨h1, h2, h3⟩ := h x l rfl
    have : signOf (x :: l) = [] := by simp [signOf, h2, h3]
    rw [this]; simp [List.takeWhile, h1]

/-! ## Strings -/

theorem escape_iff (y : UInt8) : jEscape.isMatch y = true ↔ Escapable y := by
  simp only [jEscape, Neu.isMatch, Bool.or_eq_true, decide_eq_true_eq, Bool.false_eq_true, false_or, Escapable]
  constructor
  · rintro ((((rfl | rfl) | rfl) | rfl) | rfl) <;> simp
  · rintro (rfl | rfl | rfl | rfl | rfl) <;> simp

theorem escape_fair : jEscape.Fair := C24_fair _ (.inr fun _ => rfl)

theorem strBody_strText {t : List UInt8} (h : StrText t) (post : List UInt8) :
    strBody 34 92 jEscape.isMatch (t ++ 34 :: post) = t := by
  induction h with
  | nil => exact strBody_stop _ (by rintro ⟨y, t, h, _⟩; cases h)
  | @plain x l h1 h2 _ ih =>
    rw [List.cons_append, strBody_plain x _ h1 (by
      rintro ⟨y, t, h, _⟩; injection h with h; exact h2 h), ih]
  | @pair y l h1 _ ih =>
    rw [List.cons_append, List.cons_append, strBody_pair y _ ((escape_iff y).mpr h1), ih]
  | @lone y l h1 _ ih =>
    rw [List.cons_append, List.cons_append, strBody_plain 92 _ (by decide) (by
      rintro ⟨z, t, h, hz⟩; injection h with _ h; injection h with h; subst h
      exact h1 ((escape_iff _).mp hz))]
    rw [List.cons_append] at ih
    rw [ih]

theorem strBody_head {y : UInt8} (l : List UInt8) (hy : y ≠ 34) :
    ∃ m, strBody 34 92 jEscape.isMatch (y :: l) = y :: m := by
  cases l with
  | nil => exact ⟨[], by simp [strBody, hy]⟩
  | cons z l => simp only [strBody]; split <;> simp_all

theorem strText_body (r post : List UInt8) (h : r = strBody 34 92 jEscape.isMatch r ++ 34 :: post) :
    StrText (strBody 34 92 jEscape.isMatch r) := by
  generalize hn : r.length = n
  induction n using Nat.strongRecOn generalizing r with
  | _ n ih =>
    match r with
    | [] => exact .nil
    | [x] =>
      simp only [strBody] at h ⊢
      split
      · exact .nil
      · next hx => rw [if_neg hx] at h; simp at h
    | x :: y :: l =>
      simp only [strBody] at h ⊢
      split
      · next hp =>
        rw [if_pos hp] at h
        rw [hp.1]
        simp only [List.cons_append, List.cons.injEq, true_and] at h
        exact .pair ((escape_iff y).mp hp.2) (ih l.length (by subst hn; simp; omega) l h rfl)
      · next hp =>
        rw [if_neg hp] at h
        split
        · exact .nil
        · next hx =>
          rw [if_neg hx] at h
          simp only [List.cons_append, List.cons.injEq, true_and] at h
          have h1 := ih (y :: l).length (by subst hn; simp) (y :: l) h rfl
          by_cases h2 : x = 92
          · subst h2
            have hy : ¬ Escapable y := fun h' => hp ⟨rfl, (escape_iff y).mpr h'⟩
            obtain ⟨m, hm⟩ := strBody_head l (y := y) fun h' => hy (by simp [Escapable, h'])
            rw [hm] at h1 ⊢
            exact .lone hy h1
          · exact .plain hx h2 h1

theorem str_body_run (pre rest : List UInt8) (r : Res Span) :
    Runs G none (pre ++ rest) (.rep (escapeRound 34 92 jEscape) ⟨.incl 0, .unb⟩) (blen pre) r ↔
      r = .ok ⟨blen pre, blen (strBody 34 92 jEscape.isMatch rest)⟩
        (blen (pre ++ strBody 34 92 jEscape.isMatch rest)) := by
  have := C48_escape_strval (β := JVal ν) (G := G) (quote := 34) (pfx := 92) escape_fair pre rest r
  rw [escapeStrval, runs_plain, parses_iff, parseL_pat, ← runs_iff] at this
  rw [this, blen_append]

theorem str_only (n : Nat) : ConOnly G (jStr cv) n fun t _ v => ∃ u, t = 34 :: (u ++ [34]) ∧ StrText u ∧ cv.str u = .ok () ∧
    v = .base (.json (.str u)) := by
  have hbody : ConOnly G (escapeStrval 34 92 jEscape) n fun t post v =>
      strBody 34 92 jEscape.isMatch (t ++ post) = t ∧ v = .base (.slice t) := by
    intro pre rest v o' _ h
    rw [escapeStrval, (C52_pat_construct _ _ _).1] at h
    obtain ⟨s, b, h, hb, rfl⟩ := h
    have hr := (str_body_run _ _ _).mp h
    clear h
    obtain ⟨q, hq, _⟩ := C48_body_is_maximal 34 92 jEscape.isMatch rest
    generalize ht : strBody 34 92 jEscape.isMatch rest = t at *
    subst hq
    cases hr
    rw [jsonH_slice] at hb
    cases hb
    exact ⟨t, q, rfl, rfl, ht, rfl⟩
  refine (map_only (enclose_only (lit_only [34]) hbody (lit_only [34]))).mono ?_
  rintro t post v ⟨v1, ⟨t1, t2, t3, rfl, rfl, ⟨h1, rfl⟩, rfl⟩, hv⟩
  have hs := strText_body (t2 ++ ([34] ++ post)) post (by rw [h1]; rfl)
  rw [h1] at hs
  simp only at hv
  cases hc : cv.str t2 with
  | ok _ => rw [hc] at hv; exact ⟨t2, rfl, hs, hc, (Out.ok.inj hv).symm⟩
  | error e => rw [hc] at hv; cases hv

theorem str_at {t : List UInt8} (ht : StrText t) (hc : cv.str t = .ok ()) (pre post : List UInt8) :
    ConAt G (jStr cv) pre (34 :: (t ++ [34])) post (.base (.json (.str t))) := by
  refine map_at (v := .base (.slice t)) (enclose_at (t1 := [34]) (lit_at [34] _ _) ?_ (lit_at [34] _ _)) (by simp only [hc])
  unfold ConAt
  rw [escapeStrval, (C52_pat_construct _ _ _).1]
  refine ⟨⟨blen (pre ++ [34]), blen t⟩, .slice t, ?_, jsonH_slice _ _ _ _ _, rfl⟩
  rw [str_body_run]
  have := strBody_strText ht post
  simp only [List.cons_append, List.nil_append] at this ⊢
  rw [this]

theorem num_only (n : Nat) : ConOnly G (jNum cv) n fun t _ v => ∃ x, Numeral t ∧ cv.num t = .ok x ∧
    v = .base (.json (.num x)) := by
  intro pre rest v o' _ h
  obtain ⟨h1, x, hx, rfl, rfl⟩ := (num_ok _ _ _ _).mp h
  obtain ⟨post, hp⟩ := num_dec rest
  exact ⟨_, post, hp, rfl, x, numeral_numOf _ h1, hx, rfl⟩

theorem num_at {t post : List UInt8} {x : ν} (ht : Numeral t) (hx : cv.num t = .ok x)
    (hp : HeadIs (fun x => isDigit x = false ∧ x ≠ 46) post) (pre : List UInt8) :
    ConAt G (jNum cv) pre t post (.base (.json (.num x))) := by
  obtain ⟨h1, h2⟩ := numOf_numeral ht hp
  unfold ConAt
  rw [num_ok]
  exact ⟨h2, x, by rw [h1]; exact hx, rfl, by rw [h1]⟩

theorem lit_map_only (l : List UInt8) (w : Val (JVal ν)) (n : Nat) :
    ConOnly G (.map (.lit l) fun _ => .ok w) n fun t _ v => t = l ∧ v = w := by
  intro pre rest v o' _ h
  obtain ⟨⟨t, rfl⟩, rfl, rfl⟩ := (lit_map_ok _ _ _ _ _ _).mp h
  exact ⟨l, t, rfl, rfl, rfl, rfl⟩

theorem lit_map_at (l : List UInt8) (w : Val (JVal ν)) (pre post : List UInt8) :
    ConAt G (.map (.lit l) fun _ => .ok w) pre l post w :=
  (lit_map_ok _ _ _ _ _ _).mpr ⟨⟨post, rfl⟩, rfl, rfl⟩

theorem ws_only : RunOnly G jWs fun t _ => WsText t := by
  intro pre rest s o' h
  have h := (many0_run _ _ _ _).mp h
  cases h
  exact ⟨_, _, (takeWhile_split _ rest).1, rfl, (wsText_iff _).2 (takeWhile_split _ rest).2⟩

theorem ws_at {t post : List UInt8} (ht : WsText t) (hp : HeadIs (fun x => isWs x = false) post)
    (pre : List UInt8) : RunAt G jWs pre t post := by
  have : (t ++ post).takeWhile (Neu.pred isWs).isMatch = t :=
    takeWhile_run ((wsText_iff _).1 ht) hp
  exact ⟨⟨blen pre, blen t⟩, (many0_run _ _ _ _).mpr (by rw [this])⟩

theorem keyUnit_iff (x : UInt8) : jKeyUnit.isMatch x = true ↔ isAlpha x = true ∨ isDigit x = true ∨ x = 95 := by
  simp only [jKeyUnit, Neu.isMatch, Bool.or_eq_true, decide_eq_true_eq, Bool.false_eq_true, false_or]
  constructor
  · rintro ((h | h) | h)
    · exact .inl h
    · exact .inr (.inl h)
    · exact .inr (.inr h.symm)
  · rintro (h | h | h)
    · exact .inl (.inl h)
    · exact .inl (.inr h)
    · exact .inr h.symm

theorem key_unit_only (n : Nat) : ConOnly G (.many1 jKeyUnit .empty) n fun t _ v =>
    KeyText t ∧ v = .base (.slice t) := by
  intro pre rest v o' _ h
  rw [(C52_primitive_construct (.many1 jKeyUnit .empty) trivial _ _).1] at h
  obtain ⟨s, b, h, hb, rfl⟩ := h
  have hr := (many1_run _ _ _ _).mp h
  clear h
  split at hr
  · cases hr
  · next hn =>
    obtain ⟨h1, h2⟩ := takeWhile_split jKeyUnit.isMatch rest
    generalize rest.takeWhile jKeyUnit.isMatch = t at *
    generalize rest.dropWhile jKeyUnit.isMatch = q at *
    subst h1
    cases hr
    rw [jsonH_slice] at hb
    cases hb
    exact ⟨t, q, rfl, rfl, (keyText_iff _).2 ⟨hn, fun x hx => (keyUnit_iff x).mp (h2 x hx)⟩, rfl⟩

theorem key_unit_at {t post : List UInt8} (ht : KeyText t) (pre : List UInt8) :
    ConAt G (.many1 jKeyUnit .empty) pre t (34 :: post) (.base (.slice t)) := by
  unfold ConAt
  rw [(C52_primitive_construct (.many1 jKeyUnit .empty) trivial _ _).1]
  refine ⟨⟨blen pre, blen t⟩, .slice t, ?_, jsonH_slice _ _ _ _ _, rfl⟩
  have : (t ++ 34 :: post).takeWhile jKeyUnit.isMatch = t :=
    takeWhile_run (fun x hx => (keyUnit_iff x).mpr (((keyText_iff _).1 ht).2 x hx)) (by
      rintro x b ⟨rfl, rfl⟩; decide)
  rw [many1_run, this, if_neg ht.1]

end Neure
