import Verif.BenchJson
import Verif.PropsJson
import Verif.PropsRewriteUnit
import Verif.Utf8Sim
/-!
# C86: the JSON parsers of the benchmark
-/

namespace Neure

/-- `p` is inside, built only from itself if handles are left out. -/
theorem All.of_rules {ι β : Type} {G : Rules ι β} {P : Pat ι β → Prop} {p : Pat ι β}
    (hG : ∀ i q, G i = some q → All (fun _ => none) P q) (hp : All (fun _ => none) P p) : All G P p := by
  refine All.coind (fun q => All (fun _ => none) P q) hp (fun q hq => hq.self) fun q r hq hc => ?_
  cases q <;> first | exact hG _ _ hc | exact hq.child hc

theorem All.mk {ι β : Type} {G : Rules ι β} {P : Pat ι β → Prop} {p : Pat ι β} (h : P p)
    (hc : ∀ q, Child G q p → All G P q) : All G P p := by
  intro q hq
  have : q = p ∨ ∃ r, Child G r p ∧ Desc G r q := by
    induction hq with
    | refl => exact .inl rfl
    | step h1 h2 ih =>
      rcases ih with rfl | ⟨r, h3, h4⟩
      · exact .inr ⟨_, h2, .refl⟩
      · exact .inr ⟨r, h3, .step h4 h2⟩
  rcases this with rfl | ⟨r, h3, h4⟩
  · exact h
  · exact hc r h3 q h4

namespace BenchJson

set_option linter.unusedSectionVars false
set_option linter.unusedSimpArgs false
set_option linter.unusedVariables false

/-! ## Laws -/

section Laws
variable {ι β σ : Type} [Item ι] {G : Rules ι β} {H : Handler ι β σ} {pol : Option (Pat ι β)}

theorem testItem_unit {mt : List ι → Pat ι β → Nat → Option (Res Span)} {d : List ι} {o : Nat} {u u' : Neu ι}
    (h : u.isMatch = u'.isMatch) (c : Cond ι β) : testItem mt d o u c = testItem mt d o u' c := by
  funext pr
  simp only [testItem, h]

/-- Units that accept the same items may replace each other. -/
theorem optU_unit {u u' : Neu ι} (h : u.isMatch = u'.isMatch) (c : Cond ι β) :
    ActAlike Eq G pol (.optU u c) (.optU u' c) := by
  refine C84_exact.mpr fun d o r => ?_
  simp only [parses_iff, parseL_optU, optUParse, testItem_unit h]

theorem thenU_unit {u u' v v' : Neu ι} (h : u.isMatch = u'.isMatch) (hl : u.minLength = u'.minLength)
    (h' : v.isMatch = v'.isMatch) (hl' : v.minLength = v'.minLength) (c : Cond ι β) :
    ActAlike Eq G pol (.thenU u v c) (.thenU u' v' c) := by
  refine C84_exact.mpr fun d o r => ?_
  simp only [parses_iff, parseL_thenU, thenUParse, testItem_unit h, testItem_unit h', hl, hl']

end Laws

/-! ## All patterns of the three grammars keep to positions -/

section Ins
variable {ι β : Type} [Item ι] {G : Rules ι β} {a b c : Pat ι β}

/-- Keeps to positions, handles apart. -/
abbrev Ins (G : Rules ι β) (p : Pat ι β) : Prop := All (fun _ => none) (Inside G none) p

theorem ins_cell (i : Nat) : Ins G (.cell i) := All.mk ⟨trivial, trivial⟩ fun _ h => nomatch h
theorem ins_empty : Ins G .empty := All.mk ⟨trivial, trivial⟩ fun _ h => h.elim
theorem ins_lit (l : List ι) : Ins G (.lit l) := All.mk ⟨trivial, trivial⟩ fun _ h => h.elim
theorem ins_many0 (u : Neu ι) : Ins G (.many0 u .empty) := All.mk ⟨trivial, trivial⟩ fun _ h => h.elim
theorem ins_many1 (u : Neu ι) : Ins G (.many1 u .empty) := All.mk ⟨trivial, trivial⟩ fun _ h => h.elim
theorem ins_optU (u : Neu ι) : Ins G (.optU u .empty) := All.mk ⟨trivial, trivial⟩ fun _ h => h.elim
theorem ins_between (m n : Nat) (u : Neu ι) : Ins G (.between m n u .empty) :=
  All.mk ⟨trivial, trivial⟩ fun _ h => h.elim
theorem ins_thenU (u v : Neu ι) : Ins G (.thenU u v .empty) := All.mk ⟨trivial, trivial⟩ fun _ h => h.elim
theorem ins_many1_cond (u : Neu ι) (h : Ins G a) : Ins G (.many1 u (.regex a)) :=
  All.mk ⟨trivial, trivial⟩ fun q (hq : q = a) => hq ▸ h
theorem ins_assert (v : Bool) (h : Ins G a) : Ins G (.assert a v) :=
  All.mk ⟨trivial, trivial⟩ fun q (hq : q = a) => hq ▸ h
theorem ins_rep (r : CRange) (h : Ins G a) : Ins G (.rep a r) :=
  All.mk ⟨trivial, trivial⟩ fun q (hq : q = a) => hq ▸ h
theorem ins_map (f : Val β → Out (Val β)) (h : Ins G a) : Ins G (.map a f) :=
  All.mk ⟨trivial, trivial⟩ fun q (hq : q = a) => hq ▸ h
theorem ins_pat (h : Ins G a) : Ins G (.pat a) :=
  All.mk ⟨trivial, trivial⟩ fun q (hq : q = a) => hq ▸ h
theorem ins_or (h : Ins G a) (h' : Ins G b) : Ins G (.or a b) :=
  All.mk ⟨trivial, trivial⟩ fun q (hq : q = a ∨ q = b) => hq.elim (· ▸ h) (· ▸ h')
theorem ins_thn (h : Ins G a) (h' : Ins G b) : Ins G (.thn a b) :=
  All.mk ⟨trivial, trivial⟩ fun q (hq : q = a ∨ q = b) => hq.elim (· ▸ h) (· ▸ h')
theorem ins_pre (h : Ins G a) (h' : Ins G b) : Ins G (.pre a b) :=
  All.mk ⟨trivial, trivial⟩ fun q (hq : q = a ∨ q = b) => hq.elim (· ▸ h) (· ▸ h')
theorem ins_suf (h : Ins G a) (h' : Ins G b) : Ins G (.suf a b) :=
  All.mk ⟨trivial, trivial⟩ fun q (hq : q = a ∨ q = b) => hq.elim (· ▸ h) (· ▸ h')
theorem ins_sep (k : Bool) (m : Nat) (h : Ins G a) (h' : Ins G b) : Ins G (.sep a b k m) :=
  All.mk ⟨trivial, trivial⟩ fun q (hq : q = a ∨ q = b) => hq.elim (· ▸ h) (· ▸ h')
theorem ins_enclose (h : Ins G a) (h' : Ins G b) (h'' : Ins G c) : Ins G (.enclose a b c) :=
  All.mk ⟨trivial, trivial⟩ fun q (hq : q = a ∨ q = b ∨ q = c) => hq.elim (· ▸ h) (·.elim (· ▸ h') (· ▸ h''))
theorem ins_sepOnce (h : Ins G a) (h' : Ins G b) (h'' : Ins G c) : Ins G (.sepOnce a b c) :=
  All.mk ⟨trivial, trivial⟩ fun q (hq : q = a ∨ q = b ∨ q = c) => hq.elim (· ▸ h) (·.elim (· ▸ h') (· ▸ h''))

end Ins

/-- Goes through a pattern of the grammars. -/
macro "ins" : tactic => `(tactic| repeat' first
  | exact ins_cell _ | exact ins_empty | exact ins_lit _ | exact ins_many0 _ | exact ins_many1 _ | exact ins_optU _
  | exact ins_between _ _ _ | exact ins_thenU _ _ | apply ins_many1_cond | apply ins_assert | apply ins_rep
  | apply ins_map | apply ins_pat | apply ins_or | apply ins_thn | apply ins_pre | apply ins_suf | apply ins_sep
  | apply ins_enclose | apply ins_sepOnce | assumption)

section Rules
variable {ν : Type} (cv : JConv ν) (pf : List UInt8 → Option ν)

theorem ins_j {G : Rules UInt8 (JVal ν)} (i : Nat) (q : Pat UInt8 (JVal ν)) (h : jsonRules cv i = some q) : Ins G q := by
  cases i with
  | zero => cases h; ins
  | succ i => cases h

theorem ins_z {G : Rules UInt8 (JVal ν)} (i : Nat) (q : Pat UInt8 (JVal ν)) (h : zRules pf i = some q) : Ins G q := by
  cases i with
  | zero => cases h; ins
  | succ i => cases h

theorem ins_a {G : Rules UInt8 (JVal ν)} (i : Nat) (q : Pat UInt8 (JVal ν)) (h : aRules pf i = some q) : Ins G q := by
  cases i with
  | zero => cases h; ins
  | succ i => cases h

end Rules

/-! ## Replacing parts -/

section Parts
variable {ν : Type} {G : Rules UInt8 (JVal ν)} (hG : ∀ i q, G i = some q → Ins G q)
include hG

/-- Alike in both uses, on positions of the input. -/
abbrev Same (G : Rules UInt8 (JVal ν)) (p p' : Pat UInt8 (JVal ν)) : Prop := WhollyAlikeIn Eq G jsonH none p p'

omit hG in
theorem same_refl (p : Pat UInt8 (JVal ν)) : Same G p p := (C84_in_equivalence eq_equiv).refl p

omit hG in
theorem same_symm {p p' : Pat UInt8 (JVal ν)} (h : Same G p p') : Same G p' p :=
  (C84_in_equivalence eq_equiv).symm h

omit hG in
theorem same_trans {p p' p'' : Pat UInt8 (JVal ν)} (h : Same G p p') (h' : Same G p' p'') : Same G p p'' :=
  (C84_in_equivalence eq_equiv).trans h h'

theorem same_shape {p p' : Pat UInt8 (JVal ν)} (hp : Ins G p) (hp' : Ins G p') (h : SameShape G G (Same G) p p') :
    Same G p p' :=
  C84_in_anywhere_build eq_equiv (fun q hq => nomatch hq) (.of_rules hG hp) (.of_rules hG hp') h

theorem same_leaf {p p' : Pat UInt8 (JVal ν)} (hp : Ins G p) (hp' : Ins G p') (hl : Leaf p) (hl' : Leaf p')
    (h : ActAlikeIn Eq G none p p') : Same G p p' :=
  leaf_build eq_equiv (fun q hq => nomatch hq) (.of_rules hG hp) (.of_rules hG hp') hl hl' h

/-! Signs -/

theorem same_zSign : Same G zSign jSign :=
  same_leaf hG (by unfold zSign; ins) (by unfold jSign; ins) trivial trivial
    ((optU_between _ _).symm eq_equiv)

theorem same_aSign : Same G aSign jSign :=
  same_leaf hG (by unfold aSign; ins) (by unfold jSign; ins) trivial trivial
    (fun d o _ => optU_unit (by funext x; simp [Neu.isMatch]) .empty d o)

theorem same_num {s : Pat UInt8 (JVal ν)} (hs : Ins G s) (h : Same G s jSign) :
    Same G (.pat (.thn (.thn s jDigit) (.or jDec .empty))) (.pat jNumText) := by
  have h1 : Ins G (.thn s jDigit) := by unfold jDigit; ins
  have h2 : Ins G (.thn jSign jDigit) := by unfold jSign jDigit; ins
  have h3 : Ins G (.or jDec .empty) := by unfold jDec jDigit; ins
  exact same_shape hG (ins_pat (ins_thn h1 h3)) (ins_pat (ins_thn h2 h3))
    (.pat (same_shape hG (ins_thn h1 h3) (ins_thn h2 h3)
      (.thn (same_shape hG h1 h2 (.thn h (same_refl _))) (same_refl _))))

/-! Numbers -/

omit hG in
theorem mapped_eq {a : Pat UInt8 (JVal ν)} {f g : Val (JVal ν) → Out (Val (JVal ν))} (h : ∀ v, f v = g v) :
    Pat.map a f = .map a g := by rw [show f = g from funext h]

theorem same_zNum (pf : List UInt8 → Option ν) : Same G (zNum pf) (jNum (.zero (BenchJson.toDigit pf))) := by
  have h0 : Ins G (.pat zNumText) := by unfold zNumText zSign jDigit jDec jDigit; ins
  have h0' : Ins G (.pat jNumText) := by unfold jNumText jSign jDigit jDec jDigit; ins
  have h := same_num hG (by unfold zSign; ins) (same_zSign hG)
  unfold zNum jNum
  rw [mapped_eq (a := .pat jNumText) (g := fun
    | .base (.slice l) => match BenchJson.toDigit pf l with
      | .ok x => .ok (.base (.json (.num x)))
      | .error e => .err e
    | _ => .panic) (by intro v; rfl)]
  exact same_shape hG (ins_map _ h0) (ins_map _ h0') (.map _ h)

theorem same_aNum (pf : List UInt8 → Option ν) : Same G (aNum pf) (jNum (allocConv pf)) := by
  have h0 : Ins G (.pat aNumText) := by unfold aNumText aSign jDigit jDec jDigit; ins
  have h0' : Ins G (.pat jNumText) := by unfold jNumText jSign jDigit jDec jDigit; ins
  have h := same_num hG (by unfold aSign; ins) (same_aSign hG)
  refine same_trans (C84_in_of_alike (C84_map_map _ _ _)) ?_
  refine same_trans (C84_in_of_alike (C84_map_map _ _ _)) ?_
  unfold jNum
  rw [mapped_eq (a := .pat jNumText) (g := mapThen toStr (mapThen (fromStrF64 pf) mkNum)) ?_]
  · exact same_shape hG (ins_map _ h0) (ins_map _ h0') (.map _ h)
  · intro v
    cases v with
    | base b =>
      cases b with
      | json j => rfl
      | slice l =>
        simp only [mapThen, toStr, allocConv, BenchJson.toDigit]
        by_cases hl : Utf8Text l
        · cases h : pf l <;> simp [hl, h, fromStrF64, mapThen, mkNum]
        · simp [hl]
    | _ => rfl

/-! Strings -/

omit hG in
theorem same_of_eqns {p p' : Pat UInt8 (JVal ν)}
    (h : ∀ d o, Valid d o → parseL G none d p o = parseL G none d p' o)
    (h' : ∀ d o, Valid d o → conL G jsonH none d p () o = conL G jsonH none d p' () o) : Same G p p' :=
  ⟨fun d o ho => by
      simp only [parses_iff, h d o ho]
      exact ⟨fun r hr => ⟨r, hr, .refl (fun _ => rfl) _⟩, fun r hr => ⟨r, hr, .refl (fun _ => rfl) _⟩⟩,
    fun d st o ho => by
      cases st
      simp only [constructs_iff, h' d o ho]
      exact ⟨fun r hr => ⟨r, hr, .refl (fun _ => rfl) _⟩, fun r hr => ⟨r, hr, .refl (fun _ => rfl) _⟩⟩⟩

theorem ins_strval (e : Neu UInt8) : Ins G (escapeStrval 34 92 e) := by
  unfold escapeStrval escapeRound escapePair; ins

theorem same_strval : Same G (escapeStrval 34 92 aEscape) (escapeStrval 34 92 jEscape) := by
  have hp : Same G (escapePair 92 aEscape) (escapePair 92 jEscape) :=
    same_leaf hG (by unfold escapePair; ins) (by unfold escapePair; ins) trivial trivial
      (fun d o _ => thenU_unit (u := .item 92) (u' := .item 92)
        (v := aEscape) (v' := jEscape) rfl rfl (by funext x; simp [Neu.isMatch, aEscape, jEscape]) rfl .empty d o)
  have i1 (e : Neu UInt8) : Ins G (.assert (escapePair 92 e) false) := by unfold escapePair; ins
  have i2 (e : Neu UInt8) : Ins G (.many1 (.not (.item 34)) (.regex (.assert (escapePair 92 e) false))) := by
    unfold escapePair; ins
  have i3 (e : Neu UInt8) : Ins G (escapeRound 34 92 e) := by unfold escapeRound escapePair; ins
  have h1 := same_shape hG (i1 _) (i1 _) (.assert false hp)
  have h2 := same_shape hG (i2 _) (i2 _) (.many1 _ (.regex h1))
  have h3 : Same G (escapeRound 34 92 aEscape) (escapeRound 34 92 jEscape) :=
    same_shape hG (i3 _) (i3 _) (.or h2 hp)
  exact same_shape hG (ins_strval hG _) (ins_strval hG _)
    (.pat (same_shape hG (ins_rep _ (i3 _)) (ins_rep _ (i3 _)) (.rep _ h3)))

omit hG in
theorem lit_returns {d : List UInt8} {o : Nat} (l : List UInt8) (ho : Valid d o) :
    (∃ s o', matL G none d (.lit l) o = some (.ok s o')) ∨ (∃ e o', matL G none d (.lit l) o = some (.err e o')) := by
  obtain ⟨post, hd⟩ := valid_iff_dropB.mp ho
  rw [matL_none, parseL_lit, litParse, remK_eq hd, origAt_ok.mpr hd]
  simp only [caseO]
  split
  · split
    · exact .inl ⟨_, _, rfl⟩
    · exact .inr ⟨_, _, rfl⟩
  · exact .inr ⟨_, _, rfl⟩

/-- In front of an alternative it does not matter whether the text between the quotes is mapped
before the closing quote is read or after: either failure goes on to the alternative. -/
theorem same_map_enclose {q r : Pat UInt8 (JVal ν)} (hq : Ins G q) (l l' : List UInt8)
    {f : Val (JVal ν) → Out (Val (JVal ν))} (hf : ∀ t, f (.base (.slice t)) ≠ .panic) :
    Same G (.or (.enclose (.lit l) (.map (.pat q) f) (.lit l')) r) (.or (.map (.enclose (.lit l) (.pat q) (.lit l')) f) r) := by
  refine same_of_eqns (fun d o ho => ?_) (fun d o ho => ?_)
  · simp only [parseL_or, matL_none, parseL_enclose, parseL_map]
  · simp only [conL_or, conL_enclose, conL_map]
    rcases lit_returns (G := G) l ho with ⟨s, o1, h1⟩ | ⟨e, o1, h1⟩
    · rw [h1]
      simp only [caseM]
      have ho1 : Valid d o1 := by
        have := (runsIn_valid (G := G) (pol := none) boundPol_none).stays (.of_rules hG (ins_lit l)) d o _ ho
          (parses_iff.mpr (by rw [← matL_none]; exact h1))
        exact this
      rcases hb : conL G jsonH none d (.pat q) () o1 with _ | (⟨v, st1, o2⟩ | ⟨e, st1, o2⟩ | _) <;> simp only [caseC]
      have ho2 : Valid d o2 :=
        con_inside (st := ()) (pol := none) (fun q hq => nomatch hq) (.of_rules hG (ins_pat hq)) ho1 (constructs_iff.mpr hb)
      have hv : ∃ t, v = .base (.slice t) := by
        rw [conL_pat] at hb
        unfold invokeK jsonH at hb
        rcases hm : matL G none d q o1 with _ | (⟨s, o'⟩ | ⟨e, o'⟩ | _) <;> rw [hm] at hb <;> simp only [caseM] at hb
        all_goals try cases hb
        cases hs : origSub d s.beg s.len <;> simp only [hs] at hb <;> cases hb
        exact ⟨_, rfl⟩
      obtain ⟨t, rfl⟩ := hv
      have := hf t
      rcases lit_returns (G := G) l' ho2 with ⟨s', o3, h3⟩ | ⟨e', o3, h3⟩ <;> rw [h3] <;>
        cases hft : f (.base (.slice t)) <;> simp_all [caseT, caseM, caseC]
    · rw [h1]
      simp only [caseM, caseC]

theorem same_aStr (pf : List UInt8 → Option ν) {r r' : Pat UInt8 (JVal ν)} (hr : Ins G r) (hr' : Ins G r')
    (h : Same G r r') : Same G (.or aStr r) (.or (jStr (allocConv pf)) r') := by
  have i0 := ins_strval (G := G) hG
  have h1 : Same G aStr (.enclose (.lit [34]) (.map (escapeStrval 34 92 jEscape)
      (mapThen toStr (mapThen fromStrString mkStr))) (.lit [34])) := by
    refine same_shape hG ?_ ?_ (.enclose (same_refl _) ?_ (same_refl _))
    · have := i0 aEscape; unfold aStr; ins
    · have := i0 jEscape; ins
    · refine same_trans (C84_in_of_alike (C84_map_map _ _ _)) ?_
      refine same_trans (C84_in_of_alike (C84_map_map _ _ _)) ?_
      exact same_shape hG (ins_map _ (i0 _)) (ins_map _ (i0 _)) (.map _ (same_strval hG))
  have i1 : Ins G aStr := by have := i0 aEscape; unfold aStr; ins
  have i2 (f : Val (JVal ν) → Out (Val (JVal ν))) :
      Ins G (.enclose (.lit [34]) (.map (escapeStrval 34 92 jEscape) f) (.lit [34])) := by
    have := i0 jEscape; ins
  refine same_trans (same_shape hG (ins_or i1 hr) (ins_or (i2 _) hr') (.or h1 h)) ?_
  have hj : jStr (allocConv pf) = .map (.enclose (.lit [34]) (escapeStrval 34 92 jEscape) (.lit [34]))
      (mapThen toStr (mapThen fromStrString mkStr)) := by
    unfold jStr
    refine mapped_eq fun v => ?_
    cases v with
    | base b =>
      cases b with
      | json j => rfl
      | slice l =>
        simp only [mapThen, toStr, allocConv]
        by_cases hl : Utf8Text l
        · simp [hl, fromStrString, mapThen, mkStr]
        · simp [hl]
    | _ => rfl
  rw [hj]
  refine same_map_enclose hG ?_ _ _ fun t => ?_
  · unfold escapeRound escapePair; ins
  · simp only [mapThen, toStr]
    by_cases hl : Utf8Text t <;> simp [hl, fromStrString, mkStr]

omit hG in
theorem zStr_eq (td : List UInt8 → Except Error ν) : zStr = jStr (.zero td) := by
  unfold zStr jStr
  refine mapped_eq fun v => ?_
  cases v with
  | base b => cases b <;> rfl
  | _ => rfl

/-! Keys -/

omit hG in
theorem utf8Text_ascii {t : List UInt8} (h : ∀ x ∈ t, x < 128) : Utf8Text t := by
  induction t with
  | nil => exact ⟨[], rfl⟩
  | cons x t ih =>
    obtain ⟨cs, rfl⟩ := ih fun y hy => h y (by simp [hy])
    have hx : x.toNat < 128 := h x (by simp)
    refine ⟨Char.ofNat x.toNat :: cs, ?_⟩
    have h1 : (Char.ofNat x.toNat).toNat = x.toNat := by
      have hv : x.toNat.isValidChar := .inl (by omega)
      unfold Char.ofNat
      rw [dif_pos hv]
      rfl
    rw [utf8_cons, encode_ascii (by omega)]
    simp [asciiByte, h1]

theorem same_key : Same G (.map (.map (.many1 jKeyUnit .empty) toStr) fromStrString) (.many1 jKeyUnit .empty) := by
  refine same_of_eqns (fun d o ho => ?_) (fun d o ho => ?_)
  · simp only [parseL_map, matL_none]
  · obtain ⟨pre, post, rfl, rfl⟩ := ho
    rw [conL_map, conL_map, conL_leaf _ _ _ _ _ _ (show Leaf (.many1 jKeyUnit .empty) from trivial), matL_none,
      parses_iff.mp ((C23_many1_takeWhile jKeyUnit pre post rfl _).mpr rfl)]
    split
    · simp [invokeK, caseM, caseC]
    · have hs : origSub (pre ++ post) (blen pre) (blen (post.takeWhile jKeyUnit.isMatch)) =
          .ok (post.takeWhile jKeyUnit.isMatch) :=
        origSub_ok.mpr ⟨pre, post.dropWhile jKeyUnit.isMatch, by simp, rfl, rfl⟩
      have hu : Utf8Text (post.takeWhile jKeyUnit.isMatch) := by
        refine utf8Text_ascii fun x hx => ?_
        have := List.all_eq_true.mp List.all_takeWhile x hx
        simp only [jKeyUnit, Neu.isMatch, isAlpha, isDigit, Bool.or_eq_true, Bool.and_eq_true, decide_eq_true_eq,
          beq_iff_eq, Bool.false_or, UInt8.le_iff_toNat_le] at this
        rw [UInt8.lt_iff_toNat_lt]
        show x.toNat < 128
        rcases this with ((h | h) | h) | h
        · exact Nat.lt_of_le_of_lt h.2 (by decide)
        · exact Nat.lt_of_le_of_lt h.2 (by decide)
        · exact Nat.lt_of_le_of_lt h.2 (by decide)
        · subst h; decide
      simp [invokeK, caseM, caseC, jsonH, hs, toStr, fromStrString, hu, caseT]

/-! The grammars -/

theorem same_ele {c c' : Pat UInt8 (JVal ν)} (hc : Ins G c) (hc' : Ins G c') (h : Same G c c') :
    Same G (.pre jWs (.suf c jWs)) (.pre jWs (.suf c' jWs)) := by
  have hw : Ins G jWs := by unfold jWs; ins
  exact same_shape hG (by ins) (by ins) (.pre (same_refl _) (same_shape hG (by ins) (by ins) (.suf h (same_refl _))))

/-- The rule made of a key and an element. -/
def ruleOf (k e : Pat UInt8 (JVal ν)) : Pat UInt8 (JVal ν) :=
  .or (.map (.enclose (.lit [123]) (.sep (.sepOnce k (.lit [58]) e) (.lit [44]) true 1) (.lit [125]))
      fun v => match toMembers v with
        | some l => .ok (.base (.json (.obj l)))
        | none => .panic)
    (.map (.enclose (.lit [91]) (.sep e (.lit [44]) true 1) (.lit [93]))
      fun v => match toElems v with
        | some l => .ok (.base (.json (.arr l)))
        | none => .panic)

theorem same_rule {k k' e e' : Pat UInt8 (JVal ν)} (ik : Ins G k) (ik' : Ins G k') (ie : Ins G e) (ie' : Ins G e')
    (hk : Same G k k') (he : Same G e e') : Same G (ruleOf k e) (ruleOf k' e') := by
  refine same_shape hG (by unfold ruleOf; ins) (by unfold ruleOf; ins) (.or ?_ ?_)
  · refine same_shape hG (by ins) (by ins) (.map _ ?_)
    refine same_shape hG (by ins) (by ins) (.enclose (same_refl _) ?_ (same_refl _))
    refine same_shape hG (by ins) (by ins) (.sep _ _ ?_ (same_refl _))
    exact same_shape hG (by ins) (by ins) (.sepOnce hk (same_refl _) he)
  · refine same_shape hG (by ins) (by ins) (.map _ ?_)
    refine same_shape hG (by ins) (by ins) (.enclose (same_refl _) ?_ (same_refl _))
    exact same_shape hG (by ins) (by ins) (.sep _ _ he (same_refl _))

omit hG in
theorem ins_jKey : Ins G jKey := by unfold jKey jWs; ins

omit hG in
theorem ins_jEle (cv : JConv ν) : Ins G (jEle cv) := by
  unfold jEle jCore jNum jNumText jSign jDigit jDec jDigit jStr escapeStrval escapeRound escapePair jTrue jFalse jEmpty jWs
  ins

omit hG in
theorem ins_tail : Ins G (.or jTrue (.or jFalse (.or jEmpty (.cell 0)))) := by
  unfold jTrue jFalse jEmpty; ins

omit hG in
theorem ins_jNum (cv : JConv ν) : Ins G (jNum cv) := by
  unfold jNum jNumText jSign jDigit jDec jDigit; ins

omit hG in
theorem ins_jStr (cv : JConv ν) : Ins G (jStr cv) := by
  unfold jStr escapeStrval escapeRound escapePair; ins

theorem same_z (pf : List UInt8 → Option ν) :
    Same G (ruleOf jKey (zEle pf)) (ruleOf jKey (jEle (.zero (BenchJson.toDigit pf)))) := by
  have h1 : Ins G (zNum pf) := by unfold zNum zNumText zSign jDigit jDec jDigit; ins
  have h2 : Ins G zStr := by rw [zStr_eq (BenchJson.toDigit pf)]; exact ins_jStr _
  have h3 := ins_tail (G := G)
  have h4 := ins_jNum (G := G) (.zero (BenchJson.toDigit pf))
  have h5 : Ins G (zEle pf) := by unfold zEle jWs; ins
  refine same_rule hG ins_jKey ins_jKey h5 (ins_jEle _) (same_refl _) (same_ele hG (by ins) (by ins) ?_)
  unfold jCore
  rw [← zStr_eq]
  exact same_shape hG (by ins) (by ins) (.or (same_zNum hG pf) (same_refl _))

theorem same_a (pf : List UInt8 → Option ν) : Same G (ruleOf aKey (aEle pf)) (ruleOf jKey (jEle (allocConv pf))) := by
  have h1 : Ins G (aNum pf) := by unfold aNum aNumText aSign jDigit jDec jDigit; ins
  have h2 : Ins G aStr := by unfold aStr escapeStrval escapeRound escapePair; ins
  have h3 := ins_tail (G := G)
  have h4 := ins_jNum (G := G) (allocConv pf)
  have h4' := ins_jStr (G := G) (allocConv pf)
  have h5 : Ins G (aEle pf) := by unfold aEle jWs; ins
  have h6 : Ins G aKey := by unfold aKey jWs; ins
  refine same_rule hG h6 ins_jKey h5 (ins_jEle _) ?_ (same_ele hG (by ins) (by ins) ?_)
  · have i1 : Ins G (.many1 jKeyUnit .empty) := by ins
    refine same_ele hG (by ins) (by ins) ?_
    exact same_shape hG (by ins) (by ins) (.enclose (same_refl _) (same_key hG) (same_refl _))
  · exact same_shape hG (by ins) (by ins) (.or (same_aNum hG pf) (same_aStr hG pf h3 h3 (same_refl _)))

end Parts

/-! ## The three parsers -/

section Parsers
variable {ν : Type}

theorem sameCRes_eq {σ α : Type} {a b : CRes σ α} (h : SameCRes Eq a b) : a = b := by
  cases h
  · rfl
  · subst_vars; rfl
  · rfl

theorem rules_transport {G G' : Rules UInt8 (JVal ν)} (hG : ∀ i q, G i = some q → Ins G q)
    (hG' : ∀ i q, G' i = some q → Ins G' q) (h : RuleByRule (Same G) G G') (h' : RuleByRule (Same G') G G')
    (d : List UInt8) (r : CRes Unit (Val (JVal ν))) :
    Constructs G jsonH none d (.cell 0) () 0 r ↔ Constructs G' jsonH none d (.cell 0) () 0 r := by
  have := C84_in_rules_build (H := jsonH) (st := ()) (d := d) (o := 0) (p := .cell 0) eq_equiv
    (h.mono fun _ _ h => h.1) h (h'.mono fun _ _ h => h.1) h' (fun q hq => nomatch hq) (fun q hq => nomatch hq)
    (.of_rules hG (ins_cell 0)) (.of_rules hG' (ins_cell 0)) ⟨[], d, rfl, rfl⟩
  constructor
  · intro h
    obtain ⟨r', h1, h2⟩ := this.1 _ h
    cases sameCRes_eq h2
    exact h1
  · intro h
    obtain ⟨r', h1, h2⟩ := this.2 _ h
    cases sameCRes_eq h2
    exact h1

theorem rule_z (S : Pat UInt8 (JVal ν) → Pat UInt8 (JVal ν) → Prop) (pf : List UInt8 → Option ν)
    (h : S (ruleOf jKey (zEle pf)) (ruleOf jKey (jEle (.zero (BenchJson.toDigit pf))))) :
    RuleByRule S (zRules pf) (jsonRules (.zero (BenchJson.toDigit pf))) := by
  intro i
  cases i with
  | zero => exact .inr ⟨_, _, rfl, rfl, h⟩
  | succ i => exact .inl ⟨rfl, rfl⟩

theorem rule_a (S : Pat UInt8 (JVal ν) → Pat UInt8 (JVal ν) → Prop) (pf : List UInt8 → Option ν)
    (h : S (ruleOf aKey (aEle pf)) (ruleOf jKey (jEle (allocConv pf)))) :
    RuleByRule S (aRules pf) (jsonRules (allocConv pf)) := by
  intro i
  cases i with
  | zero => exact .inr ⟨_, _, rfl, rfl, h⟩
  | succ i => exact .inl ⟨rfl, rfl⟩

/-- **C86 (the parser without copies).** `neure_json_zero` of the benchmark returns exactly what
the parser of `examples/json.rs` returns: the same tree and end of the document, or the same error. -/
theorem _root_.Neure.C86_zero_is_example (pf : List UInt8 → Option ν) (d : List UInt8) (r : CRes Unit (Val (JVal ν))) :
    ZeroParse pf d r ↔ JsonParse (.zero (BenchJson.toDigit pf)) d r :=
  rules_transport (fun i q h => ins_z pf i q h) (fun i q h => ins_j _ i q h)
    (rule_z _ pf (same_z (fun i q h => ins_z pf i q h) pf)) (rule_z _ pf (same_z (fun i q h => ins_j _ i q h) pf)) d r

theorem alloc_is_example (pf : List UInt8 → Option ν) (d : List UInt8) (r : CRes Unit (Val (JVal ν))) :
    AllocParse pf d r ↔ JsonParse (allocConv pf) d r :=
  rules_transport (fun i q h => ins_a pf i q h) (fun i q h => ins_j _ i q h)
    (rule_a _ pf (same_a (fun i q h => ins_a pf i q h) pf)) (rule_a _ pf (same_a (fun i q h => ins_j _ i q h) pf)) d r

/-! The readings: the copying parser lets in the documents of the other whose strings are UTF-8. -/

/-- What the nonterminals say about UTF-8. -/
def DenUtf8 : (k : Sort') → k.Den ν → Prop
  | .doc => StrsUtf8
  | .elem => StrsUtf8
  | .elems => ElemsUtf8
  | .members => MembersUtf8

theorem reads_alloc_iff (pf : List UInt8 → Option ν) (k : Sort') (t : List UInt8) (x : k.Den ν) :
    Reads (allocConv pf) k t x ↔ Reads (.zero (BenchJson.toDigit pf)) k t x ∧ DenUtf8 k x := by
  constructor
  · intro h
    induction h with
    | array _ ih => exact ⟨.array ih.1, ih.2⟩
    | object _ ih => exact ⟨.object ih.1, ih.2⟩
    | null => exact ⟨.null, trivial⟩
    | true => exact ⟨.true, trivial⟩
    | false => exact ⟨.false, trivial⟩
    | str h1 h2 =>
      refine ⟨.str h1 rfl, ?_⟩
      simp only [allocConv] at h2
      split at h2
      · assumption
      · cases h2
    | num h1 h2 => exact ⟨.num h1 h2, trivial⟩
    | nested _ ih => exact ⟨.nested ih.1, ih.2⟩
    | last h1 _ h2 ih => exact ⟨.last h1 ih.1 h2, ih.2, trivial⟩
    | lastComma h1 _ h2 ih => exact ⟨.lastComma h1 ih.1 h2, ih.2, trivial⟩
    | cons h1 _ h2 _ ih ih' => exact ⟨.cons h1 ih.1 h2 ih'.1, ih.2, ih'.2⟩
    | lastM h1 h2 h3 h4 _ h5 ih => exact ⟨.lastM h1 h2 h3 h4 ih.1 h5, ih.2, trivial⟩
    | lastCommaM h1 h2 h3 h4 _ h5 ih => exact ⟨.lastCommaM h1 h2 h3 h4 ih.1 h5, ih.2, trivial⟩
    | consM h1 h2 h3 h4 _ h5 _ ih ih' => exact ⟨.consM h1 h2 h3 h4 ih.1 h5 ih'.1, ih.2, ih'.2⟩
  · rintro ⟨h, hu⟩
    induction h with
    | array _ ih => exact .array (ih hu)
    | object _ ih => exact .object (ih hu)
    | null => exact .null
    | true => exact .true
    | false => exact .false
    | str h1 h2 => exact .str h1 (if_pos hu)
    | num h1 h2 => exact .num h1 h2
    | nested _ ih => exact .nested (ih hu)
    | last h1 _ h2 ih => exact .last h1 (ih hu.1) h2
    | lastComma h1 _ h2 ih => exact .lastComma h1 (ih hu.1) h2
    | cons h1 _ h2 _ ih ih' => exact .cons h1 (ih hu.1) h2 (ih' hu.2)
    | lastM h1 h2 h3 h4 _ h5 ih => exact .lastM h1 h2 h3 h4 (ih hu.1) h5
    | lastCommaM h1 h2 h3 h4 _ h5 ih => exact .lastCommaM h1 h2 h3 h4 (ih hu.1) h5
    | consM h1 h2 h3 h4 _ h5 _ ih ih' => exact .consM h1 h2 h3 h4 (ih hu.1) h5 (ih' hu.2)

/-- **C86 (the parser with copies).** `neure_json` of the benchmark returns `v` after consuming
`o'` bytes exactly if the first `o'` bytes are a document of the grammar of C49 denoting `v`, all of
whose strings are UTF-8. -/
theorem _root_.Neure.C86_alloc_accepts (pf : List UInt8 → Option ν) (d : List UInt8) (v : Val (JVal ν)) (o' : Nat) :
    AllocParse pf d (.ok v () o') ↔
      ∃ t post j, d = t ++ post ∧ o' = t.length ∧ Reads (.zero (BenchJson.toDigit pf)) .doc t j ∧ StrsUtf8 j ∧
        v = .base (.json j) := by
  rw [alloc_is_example, C49_accepts_exactly]
  constructor
  · rintro ⟨t, post, j, h1, h2, h3, h4⟩
    obtain ⟨h5, h6⟩ := (reads_alloc_iff pf .doc t j).mp h3
    exact ⟨t, post, j, h1, h2, h5, h6, h4⟩
  · rintro ⟨t, post, j, h1, h2, h5, h6, h4⟩
    exact ⟨t, post, j, h1, h2, (reads_alloc_iff pf .doc t j).mpr ⟨h5, h6⟩, h4⟩

/-- **C86 (the two agree).** The parser with copies returns a tree exactly if the parser without
returns it and its strings are UTF-8. -/
theorem _root_.Neure.C86_alloc_iff_zero (pf : List UInt8 → Option ν) (d : List UInt8) (j : Json ν) (o' : Nat) :
    AllocParse pf d (.ok (.base (.json j)) () o') ↔ ZeroParse pf d (.ok (.base (.json j)) () o') ∧ StrsUtf8 j := by
  rw [C86_alloc_accepts, C86_zero_is_example, C49_accepts_exactly]
  constructor
  · rintro ⟨t, post, j, h1, h2, h5, h6, h4⟩
    cases h4
    exact ⟨⟨t, post, j, h1, h2, h5, rfl⟩, h6⟩
  · rintro ⟨⟨t, post, j, h1, h2, h5, h4⟩, h6⟩
    cases h4
    exact ⟨t, post, j, h1, h2, h5, h6, rfl⟩

/-- **C86 (total).** On every input both return a tree or an error. -/
theorem _root_.Neure.C86_return (pf : List UInt8 → Option ν) (d : List UInt8) :
    ((∃ j o', ZeroParse pf d (.ok (.base (.json j)) () o')) ∨ ∃ e o', ZeroParse pf d (.err e () o')) ∧
    ((∃ j o', AllocParse pf d (.ok (.base (.json j)) () o')) ∨ ∃ e o', AllocParse pf d (.err e () o')) := by
  have go (cv : JConv ν) (P : CRes Unit (Val (JVal ν)) → Prop) (h : ∀ r, P r ↔ JsonParse cv d r) :
      (∃ j o', P (.ok (.base (.json j)) () o')) ∨ ∃ e o', P (.err e () o') := by
    rcases C49_returns cv d with ⟨v, o', h1⟩ | ⟨e, o', h1⟩
    · obtain ⟨t, post, j, _, _, _, rfl⟩ := (C49_accepts_exactly cv d v o').mp h1
      exact .inl ⟨j, o', (h _).mpr h1⟩
    · exact .inr ⟨e, o', (h _).mpr h1⟩
  exact ⟨go _ _ (C86_zero_is_example pf d), go _ _ (alloc_is_example pf d)⟩

/-- **C86 (numbers).** A numeral is ASCII: the conversion of a number never fails for its encoding,
only because `f64` does not read it. -/
theorem _root_.Neure.C86_numerals (pf : List UInt8 → Option ν) (t : List UInt8) (h : Numeral t) :
    BenchJson.toDigit pf t = match pf t with
      | some x => .ok x
      | none => .error .fromStr := by
  obtain ⟨s, ds, fr, rfl, hs, hds, hfr⟩ := h
  have dig {ds : List UInt8} (h : Digits ds) (x : UInt8) (hx : x ∈ ds) : x < 128 := by
    have := (h.2 x hx).2
    rw [UInt8.le_iff_toNat_le] at this
    exact UInt8.lt_iff_toNat_lt.mpr (Nat.lt_of_le_of_lt this (by decide))
  refine if_pos (utf8Text_ascii fun x hx => ?_)
  rcases List.mem_append.mp hx with hx | hx
  · rcases hs with rfl | rfl | rfl
    · cases hx
    · cases List.mem_singleton.mp hx; decide
    · cases List.mem_singleton.mp hx; decide
  · rcases List.mem_append.mp hx with hx | hx
    · exact dig hds x hx
    · rcases hfr with rfl | ⟨ds', rfl, h'⟩
      · cases hx
      · rcases List.mem_cons.mp hx with rfl | hx
        · decide
        · exact dig h' x hx

/-! `{"a":[+1,"é"]}` is read by both; with a lone byte 255 for `é`, only by the one without copies. -/

def exDoc (s : List UInt8) : List UInt8 := [123, 34, 97, 34, 58, 91, 43, 49, 44, 34] ++ s ++ [34, 93, 125]

def exJson (s : List UInt8) : Json (List UInt8) := .obj [([97], .arr [.num [43, 49], .str s])]

theorem ex_reads (s : List UInt8) (hs : StrText s) :
    Reads (.zero (BenchJson.toDigit some)) .doc (exDoc s) (exJson s) := by
  have hn : Numeral [43, 49] := ⟨[43], [49], [], rfl, .inr (.inl rfl), ⟨by simp, by decide⟩, .inl rfl⟩
  have h1 : Reads (.zero (BenchJson.toDigit some)) .elem [43, 49] (.num [43, 49]) :=
    .num hn (C86_numerals some _ hn)
  have h2 := Reads.cons (w := []) (w' := []) (by simp [WsText]) h1 (by simp [WsText])
    (Reads.last (w := []) (w' := []) (by simp [WsText]) (Reads.str hs rfl) (by simp [WsText]))
  have h3 := Reads.lastM (w := []) (w' := []) (v := []) (v' := []) (k := [97]) (by simp [WsText])
    ⟨by simp, by decide⟩ (by simp [WsText]) (by simp [WsText]) (.nested (.array h2)) (by simp [WsText])
  have h4 := Reads.object h3
  simpa [exDoc, exJson] using h4

theorem not_utf8_255 : ¬ Utf8Text [255] := by
  rintro ⟨cs, h⟩
  cases cs with
  | nil => cases h
  | cons c cs =>
    have hl := congrArg List.length h
    rw [utf8_cons, List.length_append, String.length_utf8EncodeChar] at hl
    have := c.utf8Size_pos
    simp only [List.length_cons, List.length_nil] at hl
    have h1 : c.utf8Size = 1 := by omega
    have hc : c.toNat < 128 := by
      have := Char.utf8Size_eq_one_iff.mp h1
      have := UInt32.le_iff_toNat_le.mp this
      exact Nat.lt_of_le_of_lt this (by decide)
    rw [utf8_cons, encode_ascii hc] at h
    have h2 := (List.cons.inj h).1
    have h3 := congrArg UInt8.toNat h2
    simp only [asciiByte, UInt8.toNat_ofNat', Nat.reducePow] at h3
    have : (255 : UInt8).toNat = 255 := rfl
    omega

example : AllocParse some (exDoc [195, 169]) (.ok (.base (.json (exJson [195, 169]))) () 15) :=
  (C86_alloc_accepts _ _ _ _).mpr ⟨exDoc [195, 169], [], _, by simp, rfl,
    ex_reads _ (.plain (by decide) (by decide) (.plain (by decide) (by decide) .nil)),
    ⟨⟨trivial, ⟨['é'], by decide⟩, trivial⟩, trivial⟩, rfl⟩

example : ZeroParse some (exDoc [255]) (.ok (.base (.json (exJson [255]))) () 14) ∧
    ∃ e o', AllocParse some (exDoc [255]) (.err e () o') := by
  have h : ZeroParse some (exDoc [255]) (.ok (.base (.json (exJson [255]))) () 14) := by
    rw [C86_zero_is_example, C49_accepts_exactly]
    exact ⟨exDoc [255], [], _, by simp, rfl, ex_reads _ (.plain (by decide) (by decide) .nil), rfl⟩
  refine ⟨h, ?_⟩
  rcases (C86_return some (exDoc [255])).2 with ⟨j, o', h1⟩ | h1
  · obtain ⟨h2, h3⟩ := (C86_alloc_iff_zero _ _ _ _).mp h1
    cases Constructs.unique h h2
    exact absurd h3.1.2.1 not_utf8_255
  · exact h1

end Parsers

end BenchJson
end Neure
