import Verif.ArrayDoc
import Verif.PropsNum
import Verif.PropsCtorLoop
import Verif.PropsCtorPanic
/-!
# C101: the array of numbers of the documentation
-/

namespace Neure

set_option linter.unusedSectionVars false
set_option linter.unusedSimpArgs false

open Demo

namespace NumArray

/-! ## Specification -/

/-- A number is written: at least one digit; the value counts in tens. -/
def Numeral (t : List Char) (n : Nat) : Prop := t ≠ [] ∧ Denotes 10 t n

/-- Numbers, each followed by a comma and any number of blanks. -/
inductive Items : List Char → List Nat → Prop where
  | nil : Items [] []
  | cons {t ws x : List Char} {n : Nat} {ns : List Nat} : Numeral t n → (∀ c ∈ ws, c ∈ Chars.unicodeBlanks) →
      Items x ns → Items (t ++ ',' :: (ws ++ x)) (n :: ns)

/-- What may stand between the brackets: one or more numbers with commas between them; a comma may
follow the last one, blanks only follow commas. -/
def Listed (t : List Char) (ns : List Nat) : Prop :=
  (Items t ns ∧ ns ≠ []) ∨ ∃ x y ms n, t = x ++ y ∧ Items x ms ∧ Numeral y n ∧ ns = ms ++ [n]

/-- All values of the type `i64`. -/
def Fit (ns : List Nat) : Prop := ∀ n ∈ ns, n < 2 ^ 63

/-- The value: a vector of numbers. -/
def vec (ns : List Nat) : Val NumVal := .list (ns.map fun n : Nat => .base (.num n))

/-- The debug text of a vector of numbers, `[2, 4, 8]`. -/
def print (ns : List Nat) : List Char :=
  '[' :: (", ".toList.intercalate (ns.map (Nat.toDigits 10)) ++ [']'])

/-! ## Proof tools -/

theorem inType_iff_lt (n : Nat) : InType true 64 (n : Int) ↔ n < 2 ^ 63 := by
  simp only [InType, if_true]; omega

theorem figure_iff (c : Char) : figure.isMatch c = true ↔ ∃ v, IsDigit 10 c v := by
  rw [← (C59_digit 10 (by decide) c).2]
  have h : figure.isMatch c = (Unit.digit 10).isMatch c := by
    rw [(C59_digit_10_16 c).1]
    simp only [figure, Neu.isMatch, CRange.contains, Unit.asciiDigit, Unit.byCode]
    rfl
  rw [h]


theorem run_of_rest (rest : List Char) : DigitRun 10 rest (rest.takeWhile figure.isMatch) := by
  have h := digitRun_takeWhile (r := 10) (by decide) rest
  have e : (Unit.digit 10).isMatch = figure.isMatch := by
    funext c
    have h1 := figure_iff c
    rw [← (C59_digit 10 (by decide) c).2] at h1
    exact (Bool.eq_iff_iff.mpr h1).symm
  rwa [e] at h

theorem run_unique {rest run : List Char} (h : DigitRun 10 rest run) : run = rest.takeWhile figure.isMatch := by
  rw [digitRun_unique (by decide) h, ← digitRun_unique (by decide) (run_of_rest rest)]

/-- What the mapper does with a number too large. -/
structure Mapper (f : Val NumVal → Out (Val NumVal)) (bad : Out (Val NumVal)) : Prop where
  fits : ∀ {t n}, Numeral t n → n < 2 ^ 63 → f (.base (.text t)) = .ok (.base (.num n))
  large : ∀ {t n}, Numeral t n → ¬ n < 2 ^ 63 → f (.base (.text t)) = bad

theorem mapper_unwrapped : Mapper unwrapped .panic where
  fits h hn := by
    simp only [unwrapped]
    rw [(read_run (by decide) (by decide) h.1 h.2).1 ((inType_iff_lt _).mpr hn)]
  large h hn := by
    simp only [unwrapped]
    rw [(read_run (by decide) (by decide) h.1 h.2).2 (fun h => hn ((inType_iff_lt _).mp h))]

theorem mapper_try : Mapper (numMapper true 64 10) (.err .fromStr) where
  fits h hn := by
    rw [numMapper_text, (read_run (by decide) (by decide) h.1 h.2).1 ((inType_iff_lt _).mpr hn)]
  large h hn := by
    rw [numMapper_text, (read_run (by decide) (by decide) h.1 h.2).2 (fun h => hn ((inType_iff_lt _).mp h))]

variable {G : Rules Char NumVal} {f : Val NumVal → Out (Val NumVal)} {bad : Out (Val NumVal)}

/-- One number. -/
theorem number_at {d pre rest run : List Char} (hd : d = pre ++ rest) (hrun : DigitRun 10 rest run) :
    (run = [] → Constructs G textH none d (number f) () (blen pre) (.err .many1 () (blen pre))) ∧
    (run ≠ [] → (∀ w, f (.base (.text run)) = .ok w →
        Constructs G textH none d (number f) () (blen pre) (.ok w () (blen pre + blen run))) ∧
      (∀ e, f (.base (.text run)) = .err e →
        Constructs G textH none d (number f) () (blen pre) (.err e () (blen pre + blen run))) ∧
      (f (.base (.text run)) = .panic → Constructs G textH none d (number f) () (blen pre) .panic)) := by
  subst hd
  have hu := run_unique hrun
  obtain ⟨tl, hsplit, _, _⟩ := hrun
  have hm := fun res => C23_many1_takeWhile (β := NumVal) (G := G) (pol := none) figure pre rest rfl res
  rw [← hu] at hm
  have hm' : ∀ res, Runs G none (pre ++ rest) (.many1 figure .empty) (blen pre) res ↔
      Parses G none (pre ++ rest) (.many1 figure .empty) (blen pre) res := fun res => runs_plain
  have hleaf := C52_primitive_construct (G := G) (H := textH) (pol := none) (d := pre ++ rest)
    (.many1 figure .empty) trivial () (blen pre)
  have hmap := C52_map_construct (G := G) (H := textH) (pol := none) (d := pre ++ rest)
    (.many1 figure .empty) f () (blen pre)
  have hH : textH (pre ++ rest) (blen pre + blen run) ⟨blen pre, blen run⟩ () = (.ok (.text run), ()) := by
    unfold textH
    rw [hsplit, ← List.append_assoc, origSub_append]
  refine ⟨fun h => ?_, fun h => ?_⟩
  · exact (hmap.2.1 _ _ _).mpr (.inl ((hleaf.2.1 _ _ _).mpr (.inl ⟨(hm' _).mpr ((hm _).mpr (by rw [if_pos h])), rfl⟩)))
  · have hC : Constructs G textH none (pre ++ rest) (.many1 figure .empty) () (blen pre)
        (.ok (.base (.text run)) () (blen pre + blen run)) :=
      (hleaf.1 _ _ _).mpr ⟨_, _, (hm' _).mpr ((hm _).mpr (by rw [if_neg h])), hH, rfl⟩
    exact ⟨fun w hw => (hmap.1 _ _ _).mpr ⟨_, hC, hw⟩, fun e he => (hmap.2.1 _ _ _).mpr (.inr ⟨_, hC, he⟩),
      fun hp => hmap.2.2.mpr (.inr ⟨_, _, _, hC, hp⟩)⟩

/-- The number at the front of `rest`, if any. -/
theorem numeral_of_run {rest run : List Char} (hrun : DigitRun 10 rest run) (hne : run ≠ []) :
    ∃ n, Numeral run n := by
  obtain ⟨tl, _, h, _⟩ := hrun
  obtain ⟨n, hn⟩ := exists_denotes run h
  exact ⟨n, hne, hn⟩

/-- The separator: a comma and the blanks behind it. -/
theorem comma_ok {d pre tl ws : List Char} (hd : d = pre ++ ',' :: (ws ++ tl))
    (hw : ∀ c ∈ ws, c ∈ Chars.unicodeBlanks) (ht : ∀ c l, tl = c :: l → c ∉ Chars.unicodeBlanks) :
    ∃ s, Runs G none d comma (blen pre) (.ok s (blen pre + 1 + blen ws)) := by
  have h1 : Runs G none d (.lit [',']) (blen pre) (.ok ⟨blen pre, blen [',']⟩ (blen pre + blen [','])) :=
    runs_plain.mpr ((C12_literal pre _ [','] hd _).mpr (.inl ⟨⟨ws ++ tl, rfl⟩, rfl⟩))
  have hb : blen [','] = 1 := by decide
  have etw : (ws ++ tl).takeWhile Unit.whitespace.isMatch = ws := by
    have h1 : ∀ c ∈ ws, Unit.whitespace.isMatch c = true := fun c hc => (C59_whitespace_control c).1.mpr (hw c hc)
    rw [List.takeWhile_append_of_pos h1]
    cases tl with
    | nil => simp
    | cons c l =>
      have := ht c l rfl
      rw [← (C59_whitespace_control c).1] at this
      simp [List.takeWhile_cons, this]
  have h2 := (C23_many0_takeWhile (β := NumVal) (G := G) (pol := none) (d := d) Unit.whitespace (pre ++ [',']) (ws ++ tl)
    (by rw [hd]; simp) _).mpr rfl
  rw [etw, blen_append] at h2
  rw [hb] at h1 h2
  refine ⟨⟨blen pre, 1 + blen ws⟩, runs_plain.mpr (((C08_suffix _ _ _).1 _ _).mpr ⟨_, _, _, h1, runs_plain.mpr h2, ?_⟩)⟩
  exact ⟨by simp, by simp, rfl, by simp; omega⟩

theorem comma_err {d pre rest : List Char} (hd : d = pre ++ rest) (hn : ∀ l, rest ≠ ',' :: l) :
    Runs G none d comma (blen pre) (.err .literal (blen pre)) := by
  refine runs_plain.mpr (((C08_suffix _ _ _).2.1 _ _).mpr ⟨rfl, .inl ⟨blen pre, runs_plain.mpr
    ((C12_literal pre _ [','] hd _).mpr (.inr ⟨?_, rfl⟩))⟩⟩)
  rintro ⟨t, ht⟩; exact hn t ht

/-- Blanks and the rest. -/
theorem blanks_split (l : List Char) : ∃ ws tl, l = ws ++ tl ∧ (∀ c ∈ ws, c ∈ Chars.unicodeBlanks) ∧
    (∀ c x, tl = c :: x → c ∉ Chars.unicodeBlanks) := by
  refine ⟨l.takeWhile (decide <| · ∈ Chars.unicodeBlanks), l.dropWhile (decide <| · ∈ Chars.unicodeBlanks),
    List.takeWhile_append_dropWhile.symm, fun c hc => ?_, fun c x hc => ?_⟩
  · have := List.all_eq_true.mp (List.all_takeWhile (l := l) (p := (decide <| · ∈ Chars.unicodeBlanks))) c hc
    simpa using this
  · have := List.head?_dropWhile_not (decide <| · ∈ Chars.unicodeBlanks) l
    rw [hc] at this
    simpa using this

theorem digit_not_blank {c : Char} {v : Nat} (h : IsDigit 10 c v) : c ∉ Chars.unicodeBlanks := by
  intro hc
  have h1 := (C59_digit 10 (by decide) c).1.mp ((C59_digit 10 (by decide) c).2.mpr ⟨v, h⟩)
  rw [show Chars.ofRadix 10 = Chars.digits by decide +kernel] at h1
  have : ∀ x ∈ Chars.digits, x ∉ Chars.unicodeBlanks := by decide +kernel
  exact this c h1 hc

theorem not_digit {c : Char} (h : c = ',' ∨ c = ']') : ¬ ∃ v, IsDigit 10 c v := by
  rw [← (C59_digit 10 (by decide) c).2]
  rcases h with rfl | rfl <;> decide +kernel

theorem numeral_digits {t : List Char} {n : Nat} (h : Denotes 10 t n) : ∀ c ∈ t, ∃ v, IsDigit 10 c v := by
  induction t generalizing n with
  | nil => intro c hc; cases hc
  | cons a t ih =>
    obtain ⟨v, m, hv, hm, _⟩ := h
    intro c hc
    rcases List.mem_cons.mp hc with rfl | hc
    · exact ⟨v, hv⟩
    · exact ih hm c hc

theorem numeral_run {t tl : List Char} {n : Nat} (h : Numeral t n) (ht : ∀ c l, tl = c :: l → c = ',' ∨ c = ']') :
    DigitRun 10 (t ++ tl) t :=
  ⟨tl, rfl, numeral_digits h.2, fun c l hc => not_digit (ht c l hc)⟩

theorem Numeral.start {t tl : List Char} {n : Nat} (h : Numeral t n) :
    ∀ c l, t ++ tl = c :: l → c ∉ Chars.unicodeBlanks := by
  cases t with
  | nil => exact absurd rfl h.1
  | cons a t =>
    rintro c l hc
    injection hc with hc _
    subst hc
    obtain ⟨v, _, hv, _⟩ := h.2
    exact digit_not_blank hv

theorem Items.start {x tl : List Char} {ns : List Nat} (h : Items x ns)
    (ht : ∀ c l, tl = c :: l → c ∉ Chars.unicodeBlanks) : ∀ c l, x ++ tl = c :: l → c ∉ Chars.unicodeBlanks := by
  cases h with
  | nil => exact ht
  | cons hn _ _ => rw [List.append_assoc]; exact hn.start

/-- Reading items. -/
theorem built_items (hf : Mapper f bad) (hbad : ∀ w, bad ≠ .ok w) {d : List Char} {vs : List (Val NumVal)} {st st' : Unit} {o o' : Nat}
    (h : BuiltSep G textH none d (number f) comma vs st o st' o') :
    ∀ pre rest, d = pre ++ rest → o = blen pre → ∃ x ns tl, rest = x ++ tl ∧ Items x ns ∧ Fit ns ∧
      vs = ns.map (fun n : Nat => .base (.num n)) ∧ o' = blen pre + blen x := by
  induction h with
  | nil st o => intro pre rest hd ho; exact ⟨[], [], rest, rfl, .nil, (fun n hn => nomatch hn), rfl, by simpa using ho⟩
  | @cons v vs st st1 st' ss o o1 o2 o' hc hs _ ih =>
    rintro pre rest hd rfl
    have hrun := run_of_rest rest
    generalize rest.takeWhile figure.isMatch = run at hrun
    have hnum := number_at (G := G) (f := f) hd hrun
    by_cases hne : run = []
    · have := hc.unique (hnum.1 hne); cases this
    · obtain ⟨n, hn⟩ := numeral_of_run hrun hne
      have hnum := hnum.2 hne
      by_cases hfit : n < 2 ^ 63
      · have := hc.unique (hnum.1 _ (hf.fits hn hfit))
        injection this with hv hst ho
        subst hv ho
        obtain ⟨tl, rfl, _, _⟩ := hrun
        have hd' : d = (pre ++ run) ++ tl := by rw [hd, List.append_assoc]
        by_cases hcm : ∃ l, tl = ',' :: l
        · obtain ⟨l, rfl⟩ := hcm
          obtain ⟨ws, tl, rfl, hw, ht⟩ := blanks_split l
          obtain ⟨s, hok⟩ := comma_ok (G := G) hd' hw ht
          rw [blen_append] at hok
          have := hs.unique hok
          injection this with _ ho
          obtain ⟨x, ns, tl', rfl, hit, hfs, hvs, ho'⟩ := ih (pre ++ run ++ ',' :: ws) tl (by rw [hd']; simp)
            (by rw [ho]; simp [blen_append]; have : Item.size ',' = 1 := by decide
                omega)
          refine ⟨run ++ ',' :: (ws ++ x), n :: ns, tl', by simp, .cons hn hw hit, ?_, by rw [hvs]; rfl, ?_⟩
          · intro m hm
            rcases List.mem_cons.mp hm with rfl | hm
            · exact hfit
            · exact hfs m hm
          · rw [ho']; simp [blen_append]; omega
        · have := hs.unique (by
            have := comma_err (G := G) hd' (fun l hl => hcm ⟨l, hl⟩)
            rwa [blen_append] at this)
          cases this
      · cases hb : bad with
        | ok w => exact absurd hb (hbad w)
        | err e => have := hc.unique (hnum.2.1 e (by rw [hf.large hn hfit, hb])); cases this
        | panic => have := hc.unique (hnum.2.2 (by rw [hf.large hn hfit, hb])); cases this

/-- Items are read. -/
theorem items_built (hf : Mapper f bad) {x : List Char} {ns : List Nat} (hx : Items x ns) :
    ∀ {d pre tl : List Char}, Fit ns → d = pre ++ (x ++ tl) → (∀ c l, tl = c :: l → c ∉ Chars.unicodeBlanks) →
    BuiltSep G textH none d (number f) comma (ns.map (fun n : Nat => .base (.num n))) () (blen pre) ()
      (blen pre + blen x) := by
  induction hx with
  | nil => intro d pre tl _ _ _; exact .nil _ _
  | @cons t ws x n ns hn hw hx ih =>
    intro d pre tl hfs hd ht
    have hnum := (number_at (G := G) (f := f) (d := d) (pre := pre) (rest := t ++ (',' :: (ws ++ (x ++ tl)))) (by rw [hd]; simp) (numeral_run hn (by
      intro c l hc; injection hc with hc _; exact .inl hc.symm))).2 hn.1
    obtain ⟨s, hs⟩ := comma_ok (G := G) (d := d) (pre := pre ++ t) (tl := x ++ tl) (by rw [hd]; simp) hw (hx.start ht)
    rw [blen_append] at hs
    have := ih (d := d) (pre := pre ++ t ++ ',' :: ws) (fun m hm => hfs m (by simp [hm])) (by rw [hd]; simp) ht
    have hc1 : Item.size ',' = 1 := by decide
    refine .cons (hnum.1 _ (hf.fits hn (hfs n (by simp)))) hs ?_
    have e1 : blen (pre ++ t ++ ',' :: ws) = blen pre + blen t + 1 + blen ws := by
      simp [blen_append, hc1]; omega
    have e2 : blen pre + blen (t ++ ',' :: (ws ++ x)) = blen pre + blen t + 1 + blen ws + blen x := by
      simp [blen_append, hc1]; omega
    rw [e1] at this
    rwa [e2]

/-- The separator never panics inside the text. -/
theorem comma_no_panic {d pre rest : List Char} (hd : d = pre ++ rest) : ¬ Runs G none d comma (blen pre) .panic := by
  intro h
  by_cases hcm : ∃ l, rest = ',' :: l
  · obtain ⟨l, rfl⟩ := hcm
    obtain ⟨ws, tl, rfl, hw, ht⟩ := blanks_split l
    obtain ⟨s, hok⟩ := comma_ok (G := G) hd hw ht
    cases h.unique hok
  · cases h.unique (comma_err (G := G) hd fun l hl => hcm ⟨l, hl⟩)

/-- What the bracket does. -/
theorem bracket (c : Char) {d pre rest : List Char} (hd : d = pre ++ rest) (r : Res Span) :
    Runs G none d (.lit [c]) (blen pre) r ↔
      (∃ t, rest = c :: t ∧ r = .ok ⟨blen pre, blen [c]⟩ (blen pre + blen [c])) ∨
      ((¬ ∃ t, rest = c :: t) ∧ r = .err .literal (blen pre)) := by
  rw [runs_plain, C12_literal pre rest [c] hd]
  simp only [List.singleton_append]
  grind

/-- What the list between the brackets finds, exactly. -/
theorem list_ok (hf : Mapper f bad) (hbad : ∀ w, bad ≠ .ok w) {d pre rest : List Char} (hd : d = pre ++ rest)
    {v : Val NumVal} {st : Unit} {o' : Nat}
    (h : Constructs G textH none d (.sep (number f) comma true 1) () (blen pre) (.ok v st o')) :
    ∃ x tl ns, rest = x ++ tl ∧ o' = blen pre + blen x ∧ Fit ns ∧ v = vec ns ∧
      (Listed x ns ∨ ∃ y z n, x = y ++ z ∧ Items y ns ∧ ns ≠ [] ∧ Numeral z n ∧ ¬ n < 2 ^ 63 ∧ bad ≠ .panic) := by
  obtain ⟨vs, x?, ⟨st1, o1, hb, hx⟩, hv⟩ := ((C16_sep_construct _ _ _ _ _ _).1 _ _ _).mp h
  obtain ⟨x, ns, tl, rfl, hit, hfs, rfl, rfl⟩ := built_items hf hbad hb pre rest hd rfl
  have hd' : d = (pre ++ x) ++ tl := by rw [hd, List.append_assoc]
  have hrun := run_of_rest tl
  generalize tl.takeWhile figure.isMatch = run at hrun
  have hnum := number_at (G := G) (f := f) hd' hrun
  rw [blen_append] at hnum
  rcases hv with ⟨rfl, hl, rfl⟩ | ⟨y, rfl, -, -, rfl⟩ | ⟨_, hk, _⟩
  · obtain ⟨e, he⟩ := hx
    have hns : ns ≠ [] := by
      rintro rfl; simp at hl
    by_cases hne : run = []
    · have := he.unique (hnum.1 hne)
      injection this with _ _ ho
      exact ⟨x, tl, ns, rfl, ho, hfs, rfl, .inl (.inl ⟨hit, hns⟩)⟩
    · obtain ⟨n, hn⟩ := numeral_of_run hrun hne
      have hnum := hnum.2 hne
      by_cases hfit : n < 2 ^ 63
      · have := he.unique (hnum.1 _ (hf.fits hn hfit)); cases this
      · cases hb : bad with
        | ok w => exact absurd hb (hbad w)
        | err e' =>
          have := he.unique (hnum.2.1 e' (by rw [hf.large hn hfit, hb]))
          injection this with _ _ ho
          obtain ⟨tl, rfl, _, _⟩ := hrun
          exact ⟨x ++ run, tl, ns, by simp, by rw [ho, blen_append]; omega, hfs, rfl,
            .inr ⟨x, run, n, rfl, hit, hns, hn, hfit, by simp⟩⟩
        | panic => have := he.unique (hnum.2.2 (by rw [hf.large hn hfit, hb])); cases this
  · obtain ⟨o2, e, hc, hs⟩ := hx
    by_cases hne : run = []
    · have := hc.unique (hnum.1 hne); cases this
    · obtain ⟨n, hn⟩ := numeral_of_run hrun hne
      have hnum := hnum.2 hne
      by_cases hfit : n < 2 ^ 63
      · have := hc.unique (hnum.1 _ (hf.fits hn hfit))
        injection this with hy _ ho
        subst hy ho
        obtain ⟨tl, rfl, _, _⟩ := hrun
        have hd2 : d = (pre ++ x ++ run) ++ tl := by rw [hd', List.append_assoc (pre ++ x)]
        have ho' : o' = blen (pre ++ x ++ run) := by
          rw [← blen_append, ← blen_append] at hs
          by_cases hcm : ∃ l, tl = ',' :: l
          · obtain ⟨l, rfl⟩ := hcm
            obtain ⟨ws, tl, rfl, hw, ht⟩ := blanks_split l
            obtain ⟨s, hok⟩ := comma_ok (G := G) hd2 hw ht
            have := hs.unique hok; cases this
          · have := hs.unique (comma_err (G := G) hd2 fun l hl => hcm ⟨l, hl⟩)
            injection this
        refine ⟨x ++ run, tl, ns ++ [n], by simp, by rw [ho']; simp [blen_append] <;> omega, ?_, by simp [vec],
          .inl (.inr ⟨x, run, ns, n, rfl, hit, hn, rfl⟩)⟩
        intro m hm
        rcases List.mem_append.mp hm with hm | hm
        · exact hfs m hm
        · rw [List.mem_singleton.mp hm]; exact hfit
      · cases hb : bad with
        | ok w => exact absurd hb (hbad w)
        | err e => have := hc.unique (hnum.2.1 e (by rw [hf.large hn hfit, hb])); cases this
        | panic => have := hc.unique (hnum.2.2 (by rw [hf.large hn hfit, hb])); cases this
  · cases hk

theorem close_not_blank : ∀ (tl : List Char) c l, ']' :: tl = c :: l → c ∉ Chars.unicodeBlanks := by
  intro tl c l h
  injection h with h _
  subst h
  decide +kernel

theorem ok_list (hf : Mapper f bad) {d pre tl x : List Char} {ns : List Nat} (hd : d = pre ++ (x ++ ']' :: tl))
    (hl : Listed x ns) (hfs : Fit ns) :
    Constructs G textH none d (.sep (number f) comma true 1) () (blen pre) (.ok (vec ns) () (blen pre + blen x)) := by
  refine ((C16_sep_construct _ _ _ _ _ _).1 _ _ _).mpr ?_
  rcases hl with ⟨hit, hns⟩ | ⟨x, y, ms, n, rfl, hit, hn, rfl⟩
  · have hb := items_built (G := G) hf hit hfs hd (close_not_blank tl)
    have hnum := (number_at (G := G) (f := f) (d := d) (pre := pre ++ x) (rest := ']' :: tl) (run := [])
      (by rw [hd, List.append_assoc]) ⟨_, rfl, (fun c hc => nomatch hc), fun c l hc => by
        injection hc with hc _; exact not_digit (.inr hc.symm)⟩).1 rfl
    rw [blen_append] at hnum
    refine ⟨_, none, ⟨(), _, hb, _, hnum⟩, .inl ⟨rfl, ?_, rfl⟩⟩
    cases ns with
    | nil => exact absurd rfl hns
    | cons a ns => simp
  · have hb := items_built (G := G) (d := d) (pre := pre) (tl := y ++ ']' :: tl) hf hit
      (fun m hm => hfs m (by simp [hm])) (by rw [hd]; simp) hn.start
    have hnum := ((number_at (G := G) (f := f) (d := d) (pre := pre ++ x) (rest := y ++ ']' :: tl) (run := y)
      (by rw [hd]; simp) (numeral_run hn fun c l hc => by injection hc with hc _; exact .inr hc.symm)).2 hn.1).1 _
      (hf.fits hn (hfs n (by simp)))
    have hs := comma_err (G := G) (d := d) (pre := pre ++ x ++ y) (rest := ']' :: tl) (by rw [hd]; simp)
      (by intro l h; injection h with h _; exact absurd h (by decide))
    rw [blen_append, blen_append] at hs
    rw [blen_append] at hnum
    refine ⟨_, some (.base (.num n)), ⟨(), _, hb, _, .literal, hnum, ?_⟩, .inr (.inl ⟨_, rfl, rfl, by omega, by simp [vec]⟩)⟩
    rw [blen_append, ← Nat.add_assoc]
    exact hs

/-! ## C101 -/

/-- **C101 (the array of the documentation).** From any position of any text, `array` (numbers,
separated by commas with blanks behind them, between brackets, `parse::<i64>().unwrap()`) succeeds
exactly when the text there begins with `[`, a list of numbers of the type `i64` and `]`; the value are
these numbers, in order, and the context stops right behind the `]`.  It panics exactly when it gets to a
number that is too large.  In every other case it reports an error and the context stays. -/
theorem _root_.Neure.C101_array (G : Rules Char NumVal) (pre rest : List Char) :
    (∀ v st o', Constructs G textH none (pre ++ rest) array () (blen pre) (.ok v st o') ↔
      ∃ x tl ns, rest = '[' :: (x ++ ']' :: tl) ∧ Listed x ns ∧ Fit ns ∧ v = vec ns ∧
        o' = blen pre + blen x + 2) ∧
    (Constructs G textH none (pre ++ rest) array () (blen pre) .panic ↔
      ∃ x y tl ns n, rest = '[' :: (x ++ (y ++ tl)) ∧ Items x ns ∧ Fit ns ∧ Numeral y n ∧
        (∀ c l, tl = c :: l → ¬ ∃ v, IsDigit 10 c v) ∧ ¬ n < 2 ^ 63) ∧
    (∀ e st o', Constructs G textH none (pre ++ rest) array () (blen pre) (.err e st o') → o' = blen pre) := by
  have hb1 : ∀ c : Char, c = '[' ∨ c = ']' → blen [c] = 1 := by rintro c (rfl | rfl) <;> decide
  have hnp : ∀ (o : Nat) (c : Char), Valid (pre ++ rest) o → ¬ Runs G none (pre ++ rest) (.lit [c]) o .panic := by
    rintro o c ⟨p, q, hpq, rfl⟩ h
    rcases (bracket c hpq _).mp h with ⟨_, _, h⟩ | ⟨_, h⟩ <;> cases h
  refine ⟨fun v st o' => ⟨fun h => ?_, ?_⟩, ⟨fun h => ?_, ?_⟩, fun e st o' h => ?_⟩
  · obtain ⟨s1, o1, o2, s2, h1, h2, h3⟩ := ((C08_enclose_construct _ _ _ _ _).1 _ _ _).mp h
    rcases (bracket '[' rfl _).mp h1 with ⟨t, rfl, he⟩ | ⟨_, he⟩
    · injection he with _ ho
      subst ho
      rw [← blen_append] at h2
      obtain ⟨x, tl, ns, rfl, rfl, hfs, rfl, hl⟩ := list_ok mapper_unwrapped (by simp)
        (show pre ++ '[' :: t = (pre ++ ['[']) ++ t by simp) h2
      rw [← blen_append] at h3
      rcases (bracket ']' (show pre ++ '[' :: (x ++ tl) = (pre ++ ['['] ++ x) ++ tl by simp) _).mp h3 with
        ⟨t, rfl, he⟩ | ⟨_, he⟩
      · injection he with _ ho
        refine ⟨x, t, ns, rfl, ?_, hfs, rfl, ?_⟩
        · rcases hl with h | ⟨_, _, _, _, _, _, _, _, h⟩
          · exact h
          · exact absurd rfl h
        · rw [ho, blen_append, blen_append, hb1 _ (.inl rfl), hb1 _ (.inr rfl)]; omega
      · cases he
    · cases he
  · rintro ⟨x, tl, ns, rfl, hl, hfs, rfl, rfl⟩
    have h1 := (bracket (G := G) '[' (rfl : pre ++ '[' :: (x ++ ']' :: tl) = pre ++ _) _).mpr (.inl ⟨_, rfl, rfl⟩)
    have h2 := ok_list (G := G) (d := pre ++ '[' :: (x ++ ']' :: tl)) (pre := pre ++ ['[']) (tl := tl) mapper_unwrapped (by simp) hl hfs
    have h3 := (bracket (G := G) ']' (show pre ++ '[' :: (x ++ ']' :: tl) = (pre ++ ['['] ++ x) ++ ']' :: tl by simp) _).mpr
      (.inl ⟨_, rfl, rfl⟩)
    rw [blen_append, hb1 _ (.inl rfl)] at h2
    rw [hb1 _ (.inl rfl)] at h1
    rw [blen_append, blen_append, hb1 _ (.inl rfl), hb1 _ (.inr rfl)] at h3
    rw [show blen pre + blen x + 2 = blen pre + 1 + blen x + 1 by omega]
    exact ((C08_enclose_construct _ _ _ _ _).1 _ _ _).mpr ⟨_, _, _, _, h1, h2, h3⟩
  · rcases (C08_panic_construct _ _ _ _ _).2.2.1.mp h with h | ⟨s, o1, h1, h2⟩
    · exact absurd h (hnp _ _ ⟨pre, rest, rfl, rfl⟩)
    · rcases (bracket '[' rfl _).mp h1 with ⟨t, rfl, he⟩ | ⟨_, he⟩
      · injection he with _ ho
        subst ho
        rw [← blen_append] at h2
        have hd1 : pre ++ '[' :: t = (pre ++ ['[']) ++ t := by simp
        rcases h2 with h2 | ⟨v, st1, o2, h2, h3⟩
        · obtain ⟨vs, st1, o1, hb, hp⟩ := (C16_sep_construct_panic _ _ _ _ _ _).mp h2
          obtain ⟨x, ns, tl, rfl, hit, hfs, rfl, rfl⟩ := built_items mapper_unwrapped (by simp) hb _ _ hd1 rfl
          have hd2 : pre ++ '[' :: (x ++ tl) = (pre ++ ['['] ++ x) ++ tl := by simp
          rw [← blen_append] at hp
          have hrun := run_of_rest tl
          generalize tl.takeWhile figure.isMatch = run at hrun
          have hnum := number_at (G := G) (f := unwrapped) hd2 hrun
          by_cases hne : run = []
          · rcases hp with hp | ⟨_, _, _, hp, _⟩ <;> cases hp.unique (hnum.1 hne)
          · obtain ⟨n, hn⟩ := numeral_of_run hrun hne
            have hnum := hnum.2 hne
            obtain ⟨tl, rfl, _, htl⟩ := hrun
            by_cases hfit : n < 2 ^ 63
            · rcases hp with hp | ⟨v, _, o2, hp, hq⟩
              · cases hp.unique (hnum.1 _ (mapper_unwrapped.fits hn hfit))
              · have := hp.unique (hnum.1 _ (mapper_unwrapped.fits hn hfit))
                injection this with _ _ ho
                rw [ho, ← blen_append] at hq
                exact absurd hq (comma_no_panic (rest := tl) (by simp))
            · exact ⟨x, run, tl, ns, n, rfl, hit, hfs, hn, htl, hfit⟩
        · obtain ⟨x, tl, ns, rfl, rfl, _⟩ := list_ok mapper_unwrapped (by simp) hd1 h2
          exact absurd h3 (hnp _ _ ⟨pre ++ ['['] ++ x, tl, by simp, by rw [blen_append]⟩)
      · cases he
  · rintro ⟨x, y, tl, ns, n, rfl, hit, hfs, hn, htl, hfit⟩
    have h1 := (bracket (G := G) '[' (rfl : pre ++ '[' :: (x ++ (y ++ tl)) = pre ++ _) _).mpr (.inl ⟨_, rfl, rfl⟩)
    have h2 := items_built (G := G) (d := pre ++ '[' :: (x ++ (y ++ tl))) (pre := pre ++ ['[']) (tl := y ++ tl)
      mapper_unwrapped hit hfs (by simp) hn.start
    have hnum := ((number_at (G := G) (f := unwrapped) (d := pre ++ '[' :: (x ++ (y ++ tl))) (pre := pre ++ ['['] ++ x)
      (rest := y ++ tl) (run := y) (by simp) ⟨tl, rfl, numeral_digits hn.2, htl⟩).2 hn.1).2.2
      (mapper_unwrapped.large hn hfit)
    rw [blen_append] at h2
    rw [blen_append, blen_append] at hnum
    exact (C08_panic_construct _ _ _ _ _).2.2.1.mpr (.inr ⟨_, _, h1, .inl
      ((C16_sep_construct_panic _ _ _ _ _ _).mpr ⟨_, _, _, h2, .inl hnum⟩)⟩)
  · exact (((C08_enclose_construct _ _ _ _ _).2 _ _ _).mp h).1

/-- The list between the brackets always comes to an end. -/
theorem list_returns (hf : Mapper f bad) (hbad : ∀ w, bad ≠ .ok w) (k : Nat) :
    ∀ {d pre rest : List Char}, rest.length ≤ k → d = pre ++ rest →
    (∃ vs x? o', BuiltList G textH none d (number f) comma () (blen pre) vs x? () o') ∨
    (∃ vs o', BuiltSep G textH none d (number f) comma vs () (blen pre) () o' ∧
      Constructs G textH none d (number f) () o' .panic) := by
  induction k with
  | zero =>
    intro d pre rest hk hd
    have : rest = [] := List.length_eq_zero_iff.mp (by omega)
    subst this
    have hnum := (number_at (G := G) (f := f) hd (run := []) ⟨[], rfl, (fun c hc => nomatch hc),
      (fun c l hc => nomatch hc)⟩).1 rfl
    exact .inl ⟨[], none, _, (), _, .nil _ _, _, hnum⟩
  | succ k ih =>
    intro d pre rest hk hd
    have hrun := run_of_rest rest
    generalize rest.takeWhile figure.isMatch = run at hrun
    have hnum := number_at (G := G) (f := f) hd hrun
    by_cases hne : run = []
    · exact .inl ⟨[], none, _, (), _, .nil _ _, _, hnum.1 hne⟩
    · obtain ⟨n, hn⟩ := numeral_of_run hrun hne
      have hnum := hnum.2 hne
      by_cases hfit : n < 2 ^ 63
      · have hc := hnum.1 _ (hf.fits hn hfit)
        obtain ⟨tl, rfl, _, _⟩ := hrun
        have hd' : d = (pre ++ run) ++ tl := by rw [hd, List.append_assoc]
        by_cases hcm : ∃ l, tl = ',' :: l
        · obtain ⟨l, rfl⟩ := hcm
          obtain ⟨ws, tl, rfl, hw, ht⟩ := blanks_split l
          obtain ⟨s, hs⟩ := comma_ok (G := G) hd' hw ht
          have e1 : blen (pre ++ run ++ ',' :: ws) = blen (pre ++ run) + 1 + blen ws := by
            have hc1 : Item.size ',' = 1 := by decide
            simp [blen_append, hc1]; omega
          rw [← e1, blen_append] at hs
          have := ih (d := d) (pre := pre ++ run ++ ',' :: ws) (rest := tl) (by simp at hk; omega)
            (by rw [hd']; simp)
          rcases this with ⟨vs, x?, o', st1, o1, hb, hx⟩ | ⟨vs, o', hb, hp⟩
          · exact .inl ⟨_, x?, o', st1, o1, .cons hc hs hb, hx⟩
          · exact .inr ⟨_, o', .cons hc hs hb, hp⟩
        · have hs := comma_err (G := G) hd' fun l hl => hcm ⟨l, hl⟩
          rw [blen_append] at hs
          exact .inl ⟨[], some (.base (.num n)), _, (), _, .nil _ _, _, _, hc, hs⟩
      · cases hb : bad with
        | ok w => exact absurd hb (hbad w)
        | err e => exact .inl ⟨[], none, _, (), _, .nil _ _, _, hnum.2.1 e (by rw [hf.large hn hfit, hb])⟩
        | panic => exact .inr ⟨[], _, .nil _ _, hnum.2.2 (by rw [hf.large hn hfit, hb])⟩

theorem array_returns (hf : Mapper f bad) (hbad : ∀ w, bad ≠ .ok w) (pre rest : List Char) :
    ∃ r, Constructs G textH none (pre ++ rest) (arrayOf f) () (blen pre) r := by
  by_cases hop : ∃ t, rest = '[' :: t
  · obtain ⟨t, rfl⟩ := hop
    have h1 := (bracket (G := G) '[' (rfl : pre ++ '[' :: t = pre ++ _) _).mpr (.inl ⟨_, rfl, rfl⟩)
    rw [← blen_append] at h1
    have hd1 : pre ++ '[' :: t = (pre ++ ['[']) ++ t := by simp
    rcases list_returns (G := G) hf hbad t.length (Nat.le_refl _) hd1 with ⟨vs, x?, o', hl⟩ | ⟨vs, o', hb, hp⟩
    · have hsep : (∃ v st1 o2, Constructs G textH none (pre ++ '[' :: t) (.sep (number f) comma true 1) ()
          (blen (pre ++ ['['])) (.ok v st1 o2)) ∨
          ∃ e st1 o2, Constructs G textH none (pre ++ '[' :: t) (.sep (number f) comma true 1) ()
          (blen (pre ++ ['['])) (.err e st1 o2) := by
        cases x? with
        | none =>
          by_cases hlen : 1 ≤ vs.length
          · exact .inl ⟨_, _, _, ((C16_sep_construct _ _ _ _ _ _).1 _ _ _).mpr ⟨vs, _, hl, .inl ⟨rfl, hlen, rfl⟩⟩⟩
          · exact .inr ⟨_, _, _, ((C16_sep_construct _ _ _ _ _ _).2 _ _ _).mpr ⟨rfl, rfl, vs, _, _, hl,
              .inl ⟨rfl, by omega⟩⟩⟩
        | some y =>
          exact .inl ⟨_, _, _, ((C16_sep_construct _ _ _ _ _ _).1 _ _ _).mpr ⟨vs, _, hl,
            .inr (.inl ⟨y, rfl, rfl, by omega, rfl⟩)⟩⟩
      rcases hsep with ⟨v, st1, o2, h2⟩ | ⟨e, st1, o2, h2⟩
      · obtain ⟨x, tl, ns, rfl, rfl, _⟩ := list_ok hf hbad hd1 h2
        rw [← blen_append] at h2
        by_cases hcl : ∃ u, tl = ']' :: u
        · have h3 := (bracket (G := G) ']' (show pre ++ '[' :: (x ++ tl) = (pre ++ ['['] ++ x) ++ tl by simp) _).mpr
            (.inl ⟨hcl.choose, hcl.choose_spec, rfl⟩)
          exact ⟨_, ((C08_enclose_construct _ _ _ _ _).1 _ _ _).mpr ⟨_, _, _, _, h1, h2, h3⟩⟩
        · have h3 := (bracket (G := G) ']' (show pre ++ '[' :: (x ++ tl) = (pre ++ ['['] ++ x) ++ tl by simp) _).mpr
            (.inr ⟨hcl, rfl⟩)
          exact ⟨_, ((C08_enclose_construct _ _ _ _ _).2 _ _ _).mpr ⟨rfl, .inr (.inr ⟨_, _, _, _, _, h1, h2, h3⟩)⟩⟩
      · exact ⟨_, ((C08_enclose_construct _ _ _ _ _).2 _ _ _).mpr ⟨rfl, .inr (.inl ⟨_, _, _, h1, h2⟩)⟩⟩
    · exact ⟨_, (C08_panic_construct _ _ _ _ _).2.2.1.mpr (.inr ⟨_, _, h1, .inl
        ((C16_sep_construct_panic _ _ _ _ _ _).mpr ⟨_, _, _, hb, .inl hp⟩)⟩)⟩
  · have h1 := (bracket (G := G) '[' (rfl : pre ++ rest = pre ++ _) _).mpr (.inr ⟨hop, rfl⟩)
    exact ⟨_, ((C08_enclose_construct _ _ _ _ _).2 _ _ _).mpr ⟨rfl, .inl ⟨rfl, _, h1⟩⟩⟩

/-- **C101 (it always answers).** Whatever the text, the array of the documentation succeeds, panics or
reports an error, and in the last case the context stays: together with `C101_array` this settles the
outcome for every text. -/
theorem _root_.Neure.C101_array_answers (G : Rules Char NumVal) (pre rest : List Char)
    (hok : ¬ ∃ x tl ns, rest = '[' :: (x ++ ']' :: tl) ∧ Listed x ns ∧ Fit ns)
    (hlarge : ¬ ∃ x y tl ns n, rest = '[' :: (x ++ (y ++ tl)) ∧ Items x ns ∧ Fit ns ∧ Numeral y n ∧
        (∀ c l, tl = c :: l → ¬ ∃ v, IsDigit 10 c v) ∧ ¬ n < 2 ^ 63) :
    ∃ e, Constructs G textH none (pre ++ rest) array () (blen pre) (.err e () (blen pre)) := by
  have hall := C101_array G pre rest
  obtain ⟨r, hr⟩ := array_returns (G := G) mapper_unwrapped (by simp) pre rest
  cases r with
  | ok v st o' =>
    obtain ⟨x, tl, ns, h1, h2, h3, _⟩ := (hall.1 _ _ _).mp hr
    exact absurd ⟨x, tl, ns, h1, h2, h3⟩ hok
  | err e st o' => exact ⟨e, by have := hall.2.2 _ _ _ hr; subst this; exact hr⟩
  | panic => exact absurd (hall.2.1.mp hr) hlarge

/-- **C101 (`try_map` in place of `unwrap`).** The array never panics.  It succeeds for the same texts
with the same values, and — an element that fails ends the list, behind its digits — for one more kind of
text: when the last number, with no comma behind it, is too large and others stand before it, it is left
out in silence. -/
theorem _root_.Neure.C101_try_array (G : Rules Char NumVal) (pre rest : List Char) :
    (∀ v st o', Constructs G textH none (pre ++ rest) tryArray () (blen pre) (.ok v st o') ↔
      ∃ x tl ns, rest = '[' :: (x ++ ']' :: tl) ∧ Fit ns ∧ v = vec ns ∧ o' = blen pre + blen x + 2 ∧
        (Listed x ns ∨
          ∃ y z n, x = y ++ z ∧ Items y ns ∧ ns ≠ [] ∧ Numeral z n ∧ ¬ n < 2 ^ 63)) ∧
    ¬ Constructs G textH none (pre ++ rest) tryArray () (blen pre) .panic ∧
    (∃ r, Constructs G textH none (pre ++ rest) tryArray () (blen pre) r) ∧
    (∀ e st o', Constructs G textH none (pre ++ rest) tryArray () (blen pre) (.err e st o') → o' = blen pre) := by
  have hb1 : ∀ c : Char, c = '[' ∨ c = ']' → blen [c] = 1 := by rintro c (rfl | rfl) <;> decide
  have hnp : ∀ (o : Nat) (c : Char), Valid (pre ++ rest) o → ¬ Runs G none (pre ++ rest) (.lit [c]) o .panic := by
    rintro o c ⟨p, q, hpq, rfl⟩ h
    rcases (bracket c hpq _).mp h with ⟨_, _, h⟩ | ⟨_, h⟩ <;> cases h
  refine ⟨fun v st o' => ⟨fun h => ?_, ?_⟩, fun h => ?_, array_returns mapper_try (by simp) pre rest, fun e st o' h => ?_⟩
  · obtain ⟨s1, o1, o2, s2, h1, h2, h3⟩ := ((C08_enclose_construct _ _ _ _ _).1 _ _ _).mp h
    rcases (bracket '[' rfl _).mp h1 with ⟨t, rfl, he⟩ | ⟨_, he⟩
    · injection he with _ ho
      subst ho
      rw [← blen_append] at h2
      obtain ⟨x, tl, ns, rfl, rfl, hfs, rfl, hl⟩ := list_ok mapper_try (by simp)
        (show pre ++ '[' :: t = (pre ++ ['[']) ++ t by simp) h2
      rw [← blen_append] at h3
      rcases (bracket ']' (show pre ++ '[' :: (x ++ tl) = (pre ++ ['['] ++ x) ++ tl by simp) _).mp h3 with
        ⟨t, rfl, he⟩ | ⟨_, he⟩
      · injection he with _ ho
        refine ⟨x, t, ns, rfl, hfs, rfl, ?_, ?_⟩
        · rw [ho, blen_append, blen_append, hb1 _ (.inl rfl), hb1 _ (.inr rfl)]; omega
        · rcases hl with h | ⟨y, z, n, h1, h2, h3, h4, h5, _⟩
          · exact .inl h
          · exact .inr ⟨y, z, n, h1, h2, h3, h4, h5⟩
      · cases he
    · cases he
  · rintro ⟨x, tl, ns, rfl, hfs, rfl, rfl, hl⟩
    have h1 := (bracket (G := G) '[' (rfl : pre ++ '[' :: (x ++ ']' :: tl) = pre ++ _) _).mpr (.inl ⟨_, rfl, rfl⟩)
    have h3 := (bracket (G := G) ']' (show pre ++ '[' :: (x ++ ']' :: tl) = (pre ++ ['['] ++ x) ++ ']' :: tl by simp) _).mpr
      (.inl ⟨_, rfl, rfl⟩)
    rw [blen_append, blen_append, hb1 _ (.inl rfl), hb1 _ (.inr rfl)] at h3
    rw [hb1 _ (.inl rfl)] at h1
    rw [show blen pre + blen x + 2 = blen pre + 1 + blen x + 1 by omega]
    refine ((C08_enclose_construct _ _ _ _ _).1 _ _ _).mpr ⟨_, _, _, _, h1, ?_, h3⟩
    rcases hl with hl | ⟨y, z, n, rfl, hit, hns, hn, hfit⟩
    · have h2 := ok_list (G := G) (d := pre ++ '[' :: (x ++ ']' :: tl)) (pre := pre ++ ['[']) (tl := tl)
        mapper_try (by simp) hl hfs
      rwa [blen_append, hb1 _ (.inl rfl)] at h2
    · have hb := items_built (G := G) (d := pre ++ '[' :: (y ++ z ++ ']' :: tl)) (pre := pre ++ ['['])
        (tl := z ++ ']' :: tl) mapper_try hit hfs (by simp) hn.start
      have hnum := ((number_at (G := G) (f := numMapper true 64 10) (d := pre ++ '[' :: (y ++ z ++ ']' :: tl))
        (pre := pre ++ ['['] ++ y) (rest := z ++ ']' :: tl) (run := z) (by simp)
        (numeral_run hn fun c l hc => by injection hc with hc _; exact .inr hc.symm)).2 hn.1).2.1 _
        (mapper_try.large hn hfit)
      rw [blen_append, blen_append, hb1 _ (.inl rfl)] at hnum
      rw [blen_append, hb1 _ (.inl rfl)] at hb
      rw [blen_append, ← Nat.add_assoc]
      refine ((C16_sep_construct _ _ _ _ _ _).1 _ _ _).mpr ⟨_, none, ⟨(), _, hb, _, hnum⟩, .inl ⟨rfl, ?_, rfl⟩⟩
      cases ns with
      | nil => exact absurd rfl hns
      | cons a ns => simp
  · rcases (C08_panic_construct _ _ _ _ _).2.2.1.mp h with h | ⟨s, o1, h1, h2⟩
    · exact absurd h (hnp _ _ ⟨pre, rest, rfl, rfl⟩)
    · rcases (bracket '[' rfl _).mp h1 with ⟨t, rfl, he⟩ | ⟨_, he⟩
      · injection he with _ ho
        subst ho
        rw [← blen_append] at h2
        have hd1 : pre ++ '[' :: t = (pre ++ ['[']) ++ t := by simp
        rcases h2 with h2 | ⟨v, st1, o2, h2, h3⟩
        · obtain ⟨vs, st1, o1, hb, hp⟩ := (C16_sep_construct_panic _ _ _ _ _ _).mp h2
          obtain ⟨x, ns, tl, rfl, hit, hfs, rfl, rfl⟩ := built_items mapper_try (by simp) hb _ _ hd1 rfl
          have hd2 : pre ++ '[' :: (x ++ tl) = (pre ++ ['['] ++ x) ++ tl := by simp
          rw [← blen_append] at hp
          have hrun := run_of_rest tl
          generalize tl.takeWhile figure.isMatch = run at hrun
          have hnum := number_at (G := G) (f := numMapper true 64 10) hd2 hrun
          by_cases hne : run = []
          · rcases hp with hp | ⟨_, _, _, hp, _⟩ <;> cases hp.unique (hnum.1 hne)
          · obtain ⟨n, hn⟩ := numeral_of_run hrun hne
            have hnum := hnum.2 hne
            obtain ⟨tl, rfl, _, htl⟩ := hrun
            by_cases hfit : n < 2 ^ 63
            · rcases hp with hp | ⟨v, _, o2, hp, hq⟩
              · cases hp.unique (hnum.1 _ (mapper_try.fits hn hfit))
              · have := hp.unique (hnum.1 _ (mapper_try.fits hn hfit))
                injection this with _ _ ho
                rw [ho, ← blen_append] at hq
                exact absurd hq (comma_no_panic (rest := tl) (by simp))
            · rcases hp with hp | ⟨_, _, _, hp, _⟩ <;>
                cases hp.unique (hnum.2.1 _ (mapper_try.large hn hfit))
        · obtain ⟨x, tl, ns, rfl, rfl, _⟩ := list_ok mapper_try (by simp) hd1 h2
          exact absurd h3 (hnp _ _ ⟨pre ++ ['['] ++ x, tl, by simp, by rw [blen_append]⟩)
      · cases he
  · exact (((C08_enclose_construct _ _ _ _ _).2 _ _ _).mp h).1

theorem numeral_print (n : Nat) : Numeral (Nat.toDigits 10 n) n :=
  ⟨toDigits_ne_nil (by decide) n, denotes_toDigits (by decide) (by decide) n⟩

theorem listed_print : ∀ (a : Nat) (ns : List Nat),
    Listed (", ".toList.intercalate ((a :: ns).map (Nat.toDigits 10))) (a :: ns)
  | a, [] => by
    refine .inr ⟨[], Nat.toDigits 10 a, [], a, ?_, .nil, numeral_print a, rfl⟩
    simp [List.intercalate, List.intersperse]
  | a, b :: ns => by
    have e : ", ".toList.intercalate ((a :: b :: ns).map (Nat.toDigits 10)) =
        Nat.toDigits 10 a ++ ',' :: ([' '] ++ ", ".toList.intercalate ((b :: ns).map (Nat.toDigits 10))) := by
      simp [List.intercalate, List.intersperse]
    have hw : ∀ c ∈ [' '], c ∈ Chars.unicodeBlanks := by decide +kernel
    rw [e]
    rcases listed_print b ns with ⟨h, _⟩ | ⟨x, y, ms, n, hx, hit, hn, hns⟩
    · exact .inl ⟨.cons (numeral_print a) hw h, by simp⟩
    · refine .inr ⟨Nat.toDigits 10 a ++ ',' :: ([' '] ++ x), y, a :: ms, n, by rw [hx]; simp,
        .cons (numeral_print a) hw hit, hn, by rw [hns]; rfl⟩

/-- **C101 (round trip).** The debug text of a vector of non-negative `i64`, `[2, 4, 8, 16, 42]`, is read
back as that vector, whatever stands before and behind it. -/
theorem _root_.Neure.C101_round_trip (G : Rules Char NumVal) (pre tl : List Char) (ns : List Nat) (hne : ns ≠ [])
    (hfit : Fit ns) :
    Constructs G textH none (pre ++ (print ns ++ tl)) array () (blen pre)
      (.ok (vec ns) () (blen pre + blen (print ns))) := by
  cases ns with
  | nil => exact absurd rfl hne
  | cons a ns =>
    refine ((C101_array G pre _).1 _ _ _).mpr ⟨", ".toList.intercalate ((a :: ns).map (Nat.toDigits 10)), tl, a :: ns,
      by simp [print], listed_print a ns, hfit, rfl, ?_⟩
    have h1 : Item.size '[' = 1 := by decide
    have h2 : Item.size ']' = 1 := by decide
    simp only [print, blen_cons, blen_append, blen_nil, h1, h2]; omega

/-- The text of the documentation. -/
example : print [2, 4, 8, 16, 42] = "[2, 4, 8, 16, 42]".toList := by decide +kernel

example : Constructs G0 textH none "[2, 4, 8, 16, 42]".toList array () 0 (.ok (vec [2, 4, 8, 16, 42]) () 17) ∧
    Constructs G0 textH none "[7,]".toList array () 0 (.ok (vec [7]) () 4) ∧
    Constructs G0 textH none "[]".toList array () 0 (.err .separate () 0) ∧
    Constructs G0 textH none "[1 ,2]".toList array () 0 (.err .literal () 0) ∧
    Constructs G0 textH none "[1, 9223372036854775808]".toList array () 0 .panic ∧
    Constructs G0 textH none "[1, 9223372036854775808]".toList tryArray () 0 (.ok (vec [1]) () 24) ∧
    Constructs G0 textH none "[9223372036854775808, 1]".toList tryArray () 0 (.err .separate () 0) :=
  ⟨⟨20, by decide +kernel⟩, ⟨20, by decide +kernel⟩, ⟨20, by decide +kernel⟩, ⟨20, by decide +kernel⟩,
    ⟨20, by decide +kernel⟩, ⟨20, by decide +kernel⟩, ⟨20, by decide +kernel⟩⟩

/-- **C101 (finding).** A text with two numbers gives a vector with one. -/
theorem _root_.Neure.C101_dropped_counterexample :
    ∃ x ns ms, Listed x ns ∧ ns ≠ ms ∧ Constructs G0 textH none ('[' :: (x ++ [']'])) tryArray () 0
      (.ok (vec ms) () (blen x + 2)) := by
  refine ⟨"1, 9223372036854775808".toList, [1, 9223372036854775808], [1], ?_, by decide, 20, by decide +kernel⟩
  have := listed_print 1 [9223372036854775808]
  rwa [show ", ".toList.intercalate ([1, 9223372036854775808].map (Nat.toDigits 10)) =
    "1, 9223372036854775808".toList by decide +kernel] at this

end NumArray
end Neure
