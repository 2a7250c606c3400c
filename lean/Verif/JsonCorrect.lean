import Verif.JsonLemmas
/-!
# The JSON example: soundness and completeness

Helper lemmas for C49 (`PropsJson.lean`).
-/

namespace Neure

set_option linter.unusedSectionVars false
set_option linter.unusedSimpArgs false

variable {ν : Type} {cv : JConv ν} {G : Rules UInt8 (JVal ν)}

/-- Constructing `p` at the end of `pre` fails and leaves the position. -/
def ConErr (G : Rules UInt8 (JVal ν)) (p : Pat UInt8 (JVal ν)) (pre rest : List UInt8) : Prop :=
  ∃ e, Constructs G jsonH none (pre ++ rest) p () (blen pre) (.err e () (blen pre))

section Compose
variable {a b c : Pat UInt8 (JVal ν)} {pre t rest post : List UInt8} {v : Val (JVal ν)}

theorem or_at_left (h : ConAt G a pre t post v) : ConAt G (.or a b) pre t post v := by
  unfold ConAt at *
  rw [(C06_or_construct _ _ _ _).1]; exact .inl h

theorem or_at_right (h : ConErr G a pre (t ++ post)) (h' : ConAt G b pre t post v) :
    ConAt G (.or a b) pre t post v := by
  unfold ConAt at *
  obtain ⟨e, h⟩ := h
  rw [(C06_or_construct _ _ _ _).1]; exact .inr ⟨e, (), _, h, h'⟩

theorem or_err (h : ConErr G a pre rest) (h' : ConErr G b pre rest) : ConErr G (.or a b) pre rest := by
  obtain ⟨e, h⟩ := h
  obtain ⟨e', h'⟩ := h'
  refine ⟨e', ?_⟩
  rw [(C06_or_construct _ _ _ _).2.1]
  exact ⟨rfl, e, (), _, _, h, h'⟩

theorem map_err {f : Val (JVal ν) → Out (Val (JVal ν))} (h : ConErr G a pre rest) :
    ConErr G (.map a f) pre rest := by
  obtain ⟨e, h⟩ := h
  refine ⟨e, ?_⟩
  rw [(C52_map_construct _ _ _ _).2.1]
  exact .inl h

theorem enclose_err {l : List UInt8} (h : ¬ ∃ t, rest = l ++ t) : ConErr G (.enclose (.lit l) b c) pre rest := by
  refine ⟨.literal, ?_⟩
  rw [(C08_enclose_construct _ _ _ _ _).2]
  exact ⟨rfl, .inl ⟨rfl, _, lit_err pre rest l h⟩⟩

theorem suf_err (h : ConErr G a pre rest) : ConErr G (.suf a b) pre rest := by
  obtain ⟨e, h⟩ := h
  refine ⟨e, ?_⟩
  rw [(C08_suffix_construct _ _ _ _).2]
  exact ⟨rfl, .inl ⟨_, h⟩⟩

theorem ws_pre_err (hw : HeadIs (fun x => isWs x = false) rest) (h : ConErr G a pre rest) :
    ConErr G (.pre jWs a) pre rest := by
  obtain ⟨e, h⟩ := h
  refine ⟨e, ?_⟩
  rw [(C08_prefix_construct _ _ _ _).2]
  obtain ⟨s, hs⟩ := ws_at (G := G) (t := []) (by intro x hx; cases hx) hw pre
  simp only [List.nil_append, List.append_nil] at hs
  exact ⟨rfl, .inr ⟨s, _, _, hs, h⟩⟩

theorem sepOnce_err (h : ConErr G a pre rest) : ConErr G (.sepOnce a b c) pre rest := by
  obtain ⟨e, h⟩ := h
  refine ⟨e, ?_⟩
  rw [(C08_sepOnce_construct _ _ _ _ _).2]
  exact ⟨rfl, .inl ⟨_, h⟩⟩

theorem lit_map_err {l : List UInt8} {f : Val (JVal ν) → Out (Val (JVal ν))} (h : ¬ ∃ t, rest = l ++ t) :
    ConErr G (.map (.lit l) f) pre rest := ⟨_, lit_map_fails l f pre rest h⟩

end Compose

theorem no_lit {y x : UInt8} {l b : List UInt8} (h : x ≠ y) : ¬ ∃ t, x :: b = (y :: l) ++ t := by
  rintro ⟨t, ht⟩; injection ht with ht; exact h ht

section
variable (cv)

/-- The rules of the example. -/
abbrev JR : Rules UInt8 (JVal ν) := jsonRules cv

theorem cell_at {pre t post : List UInt8} {v : Val (JVal ν)} :
    ConAt (JR cv) (.cell 0) pre t post v ↔
      ConAt (JR cv) (.or (jObject cv) (jArray cv)) pre t post v :=
  (C52_rule_construct 0 _ _ _).1 _ rfl

theorem cell_err {pre rest : List UInt8} (h : ConErr (JR cv) (.or (jObject cv) (jArray cv)) pre rest) :
    ConErr (JR cv) (.cell 0) pre rest := by
  obtain ⟨e, h⟩ := h
  exact ⟨e, ((C52_rule_construct 0 _ _ _).1 _ rfl).mpr h⟩

theorem cell_only {n : Nat} {P : List UInt8 → List UInt8 → Val (JVal ν) → Prop}
    (h : ConOnly (JR cv) (.or (jObject cv) (jArray cv)) n P) : ConOnly (JR cv) (.cell 0) n P := by
  intro pre rest v o' hn h'
  exact h pre rest v o' hn (((C52_rule_construct 0 _ _ _).1 _ rfl).mp h')

/-- Nothing in the grammar begins with a closing bracket. -/
theorem ele_err (pre b : List UInt8) : ConErr (JR cv) (jEle cv) pre (93 :: b) := by
  refine ws_pre_err (by rintro x t ⟨rfl, rfl⟩; rfl) (suf_err ?_)
  refine or_err ⟨_, num_fails pre _ (by rintro x t ⟨rfl, rfl⟩; decide)⟩ ?_
  refine or_err (map_err (enclose_err (no_lit (by decide)))) ?_
  refine or_err (lit_map_err (no_lit (by decide))) ?_
  refine or_err (lit_map_err (no_lit (by decide))) ?_
  refine or_err (lit_map_err (no_lit (by decide))) ?_
  refine cell_err cv (or_err (map_err (enclose_err (no_lit (by decide)))) ?_)
  exact map_err (enclose_err (no_lit (by decide)))

/-- Nor with the letter `n`. -/
theorem ele_err_n (pre b : List UInt8) : ConErr (JR cv) (jEle cv) pre (110 :: b) := by
  refine ws_pre_err (by rintro x t ⟨rfl, rfl⟩; rfl) (suf_err ?_)
  refine or_err ⟨_, num_fails pre _ (by rintro x t ⟨rfl, rfl⟩; decide)⟩ ?_
  refine or_err (map_err (enclose_err (no_lit (by decide)))) ?_
  refine or_err (lit_map_err (no_lit (by decide))) ?_
  refine or_err (lit_map_err (no_lit (by decide))) ?_
  refine or_err (lit_map_err (no_lit (by decide))) ?_
  refine cell_err cv (or_err (map_err (enclose_err (no_lit (by decide)))) ?_)
  exact map_err (enclose_err (no_lit (by decide)))

theorem member_err (pre b : List UInt8) : ConErr (JR cv) (jMember cv) pre (125 :: b) :=
  sepOnce_err (ws_pre_err (by rintro x t ⟨rfl, rfl⟩; rfl) (suf_err (enclose_err (no_lit (by decide)))))

/-! ## Soundness -/

/-- What one element takes. -/
def EleText (t post : List UInt8) (v : Val (JVal ν)) : Prop :=
  ∃ w u w' j, t = w ++ (u ++ w') ∧ WsText w ∧ Reads cv .elem u j ∧ WsText w' ∧ v = .base (.json j)

/-- What one member takes. -/
def MemberText (t post : List UInt8) (v : Val (JVal ν)) : Prop :=
  ∃ w k w' x u x' j, t = w ++ (34 :: (k ++ 34 :: (w' ++ 58 :: (x ++ (u ++ x'))))) ∧ WsText w ∧ KeyText k ∧
    WsText w' ∧ WsText x ∧ Reads cv .elem u j ∧ WsText x' ∧
    v = .pair (.base (.slice k)) (.base (.json j))

theorem ele_only {n : Nat} (h : ConOnly (JR cv) (.cell 0) n fun t _ v =>
      ∃ j, Reads cv .doc t j ∧ v = .base (.json j)) :
    ConOnly (JR cv) (jEle cv) n (EleText cv) := by
  have hcore : ConOnly (JR cv) (jCore cv) n fun t _ v =>
      ∃ j, Reads cv .elem t j ∧ v = .base (.json j) := by
    refine or_only ((num_only n).mono ?_) (or_only ((str_only n).mono ?_) (or_only
      ((lit_map_only _ _ n).mono ?_) (or_only ((lit_map_only _ _ n).mono ?_) (or_only
      ((lit_map_only _ _ n).mono ?_) (h.mono ?_)))))
    · rintro t _ v ⟨x, h1, h2, rfl⟩; exact ⟨_, .num h1 h2, rfl⟩
    · rintro t _ v ⟨u, rfl, h2, h3, rfl⟩; exact ⟨_, .str h2 h3, rfl⟩
    · rintro t _ v ⟨rfl, rfl⟩; exact ⟨_, .true, rfl⟩
    · rintro t _ v ⟨rfl, rfl⟩; exact ⟨_, .false, rfl⟩
    · rintro t _ v ⟨rfl, rfl⟩; exact ⟨_, .null, rfl⟩
    · rintro t _ v ⟨j, h1, rfl⟩; exact ⟨_, .nested h1, rfl⟩
  refine (pre_only ws_only (suf_only hcore ws_only)).mono ?_
  rintro t post v ⟨w, t2, rfl, hw, u, w', rfl, ⟨j, hj, rfl⟩, hw'⟩
  exact ⟨w, u, w', j, rfl, hw, hj, hw', rfl⟩

theorem member_only {n : Nat} (h : ConOnly (JR cv) (.cell 0) n fun t _ v =>
      ∃ j, Reads cv .doc t j ∧ v = .base (.json j)) :
    ConOnly (JR cv) (jMember cv) n (MemberText cv) := by
  have hkey : ConOnly (JR cv) jKey n _ :=
    pre_only ws_only (suf_only (enclose_only (lit_only [34]) (key_unit_only n) (lit_only [34])) ws_only)
  refine (sepOnce_only hkey (lit_only [58]) (ele_only cv h)).mono ?_
  rintro t post v ⟨t1, t2, t3, v1, v2, rfl, rfl, ⟨w, t5, rfl, hw, t6, w', rfl, ⟨t7, k, t8, rfl, rfl,
    ⟨hk, rfl⟩, rfl⟩, hw'⟩, rfl, x, u, x', j, rfl, hx, hj, hx', rfl⟩
  exact ⟨w, k, w', x, u, x', j, by simp, hw, hk, hw', hx, hj, hx', rfl⟩

/-- What a list built from `p` and commas takes, given what `p` takes. -/
theorem list_only {p : Pat UInt8 (JVal ν)} {n : Nat} {P : List UInt8 → List UInt8 → Val (JVal ν) → Prop}
    {δ : Type} {L : List UInt8 → List δ → Prop} {conv : Val (JVal ν) → Option (List δ)}
    (hp : ConOnly (JR cv) p n P)
    (hres : ∀ pre rest e o', Constructs (JR cv) jsonH none (pre ++ rest) p () (blen pre) (.err e () o') →
      o' = blen pre)
    (h1 : ∀ t post v, P t post v → ∃ x, conv (.cons v .nil) = some [x] ∧ L t [x])
    (h2 : ∀ t post v, P t post v → ∃ x, conv (.cons v .nil) = some [x] ∧ L (t ++ [44]) [x])
    (h3 : ∀ t post v u l w, P t post v → L u l → conv w = some l →
      ∃ x, conv (.cons v w) = some (x :: l) ∧ L (t ++ 44 :: u) (x :: l)) :
    ConOnly (JR cv) (.sep p (.lit [44]) true 1) n fun t _ v => ∃ l, L t l ∧ conv v = some l := by
  have key : ∀ (vs : List (Val (JVal ν))) (x : Option (Val (JVal ν))) pre rest o', rest.length ≤ n →
      BuiltList (JR cv) jsonH none (pre ++ rest) p (.lit [44]) () (blen pre) vs x () o' →
      vs ++ x.toList ≠ [] →
      ∃ t post l, rest = t ++ post ∧ o' = blen (pre ++ t) ∧ L t l ∧
        conv (Val.list (vs ++ x.toList)) = some l := by
    intro vs
    induction vs with
    | nil =>
      rintro x pre rest o' hn ⟨⟨⟩, o1, hb, hx⟩ hne
      cases hb
      cases x with
      | none => exact absurd rfl hne
      | some v =>
        obtain ⟨o2, e, hc, hr⟩ := hx
        obtain ⟨t, post, rfl, rfl, hP⟩ := hp _ _ _ _ hn hc
        rw [← List.append_assoc] at hr
        have : o' = blen (pre ++ t) := by
          rw [runs_plain, C12_literal (pre ++ t) post [44] rfl] at hr
          rcases hr with ⟨_, h⟩ | ⟨_, h⟩ <;> cases h
          rfl
        obtain ⟨y, hy, hL⟩ := h1 _ _ _ hP
        exact ⟨t, post, [y], rfl, this, hL, hy⟩
    | cons v vs ih =>
      rintro x pre rest o' hn ⟨⟨⟩, o1, hb, hx⟩ _
      cases hb with
      | @cons _ _ _ st1 _ ss _ oa ob _ hc hr hb =>
        obtain ⟨t, post, rfl, rfl, hP⟩ := hp _ _ _ _ hn hc
        rw [← List.append_assoc] at hr
        obtain ⟨c, post', rfl, rfl, rfl⟩ := lit_only [44] _ _ _ _ hr
        have hd : pre ++ (t ++ ([44] ++ post')) = (pre ++ t ++ [44]) ++ post' := by simp
        have hbl : BuiltList (JR cv) jsonH none ((pre ++ t ++ [44]) ++ post') p (.lit [44]) ()
            (blen (pre ++ t ++ [44])) vs x () o' := by
          rw [← hd]; exact ⟨(), o1, hb, hx⟩
        by_cases hne : vs ++ x.toList = []
        · obtain ⟨rfl, hx0⟩ := List.append_eq_nil_iff.mp hne
          have hx0 : x = none := by cases x with
            | none => rfl
            | some _ => cases hx0
          subst hx0
          obtain ⟨⟨⟩, o3, hb3, e, he⟩ := hbl
          cases hb3
          have := hres _ _ _ _ he
          obtain ⟨y, hy, hL⟩ := h2 _ _ _ hP
          exact ⟨t ++ [44], post', [y], by simp, by simp [this], hL, hy⟩
        · obtain ⟨u, q, l, rfl, rfl, hL, hl⟩ := ih x _ _ _ (by simp at hn; omega) hbl hne
          obtain ⟨y, hy, hL'⟩ := h3 _ _ _ _ _ _ hP hL hl
          exact ⟨t ++ 44 :: u, q, y :: l, by simp, by simp, hL', hy⟩
  intro pre rest v o' hn h
  rw [(C16_sep_construct _ _ _ _ _ _).1] at h
  obtain ⟨vs, x, hbl, h⟩ := h
  have hne : vs ++ x.toList ≠ [] ∧ v = Val.list (vs ++ x.toList) := by
    rcases h with ⟨rfl, h, rfl⟩ | ⟨y, rfl, _, _, rfl⟩ | ⟨_, h, _⟩
    · refine ⟨?_, by simp⟩
      intro h'
      simp at h'
      subst h'
      simp at h
    · exact ⟨by simp, rfl⟩
    · cases h
  obtain ⟨t, post, l, hr, ho, hL, hl⟩ := key vs x pre rest o' hn hbl hne.1
  exact ⟨t, post, hr, ho, l, hL, by rw [hne.2]; exact hl⟩

theorem ele_restores (pre rest : List UInt8) (e : Error) (o' : Nat)
    (h : Constructs (JR cv) jsonH none (pre ++ rest) (jEle cv) () (blen pre) (.err e () o')) :
    o' = blen pre := ((C08_prefix_construct _ _ _ _).2 _ _ _ |>.mp h).1

theorem member_restores (pre rest : List UInt8) (e : Error) (o' : Nat)
    (h : Constructs (JR cv) jsonH none (pre ++ rest) (jMember cv) () (blen pre) (.err e () o')) :
    o' = blen pre := ((C08_sepOnce_construct _ _ _ _ _).2 _ _ _ |>.mp h).1

/-- The inside of a bracket is shorter. -/
theorem open_only {n : Nat} (l : UInt8) {b c : Pat UInt8 (JVal ν)} {B : List UInt8 → List UInt8 → Val (JVal ν) → Prop}
    {C : List UInt8 → List UInt8 → Prop}
    (h2 : ConOnly (JR cv) b n B) (h3 : RunOnly (JR cv) c C) :
    ConOnly (JR cv) (.enclose (.lit [l]) b c) (n + 1) fun t post v =>
      ∃ t2 t3, t = l :: (t2 ++ t3) ∧ B t2 (t3 ++ post) v ∧ C t3 post := by
  intro pre rest v o' hn h
  rw [(C08_enclose_construct _ _ _ _ _).1] at h
  obtain ⟨s1, o1, o2, s2, r1, r2, r3⟩ := h
  obtain ⟨t1, p1, rfl, rfl, rfl⟩ := lit_only [l] _ _ _ _ r1
  rw [← List.append_assoc] at r2 r3
  obtain ⟨t2, p2, rfl, rfl, hB⟩ := h2 _ _ _ _ (by simp only [List.length_append, List.length_cons, List.length_nil] at hn; omega) r2
  rw [← List.append_assoc] at r3
  obtain ⟨t3, p3, rfl, rfl, hC⟩ := h3 _ _ _ _ r3
  exact ⟨_, p3, by simp, by simp, t2, t3, rfl, hB, hC⟩

theorem members_only_of {n : Nat} (ih : ConOnly (JR cv) (.cell 0) n fun t _ v =>
      ∃ j, Reads cv .doc t j ∧ v = .base (.json j)) :
    ConOnly (JR cv) (.sep (jMember cv) (.lit [44]) true 1) n fun t _ v =>
      ∃ l, Reads cv .members t l ∧ toMembers v = some l := by
  refine list_only cv (member_only cv ih) (member_restores cv) ?_ ?_ ?_
  · rintro _ post _ ⟨w, k, w', x, u, x', j, rfl, hw, hk, hw', hx, hj, hx', rfl⟩
    exact ⟨(k, j), rfl, .lastM hw hk hw' hx hj hx'⟩
  · rintro _ post _ ⟨w, k, w', x, u, x', j, rfl, hw, hk, hw', hx, hj, hx', rfl⟩
    exact ⟨(k, j), rfl, by simpa using Reads.lastCommaM hw hk hw' hx hj hx'⟩
  · rintro _ post _ u l v ⟨w, k, w', x, u', x', j, rfl, hw, hk, hw', hx, hj, hx', rfl⟩ hL hv
    exact ⟨(k, j), by simp [toMembers, hv], by simpa using Reads.consM hw hk hw' hx hj hx' hL⟩

theorem elems_only_of {n : Nat} (ih : ConOnly (JR cv) (.cell 0) n fun t _ v =>
      ∃ j, Reads cv .doc t j ∧ v = .base (.json j)) :
    ConOnly (JR cv) (.sep (jEle cv) (.lit [44]) true 1) n fun t _ v =>
      ∃ l, Reads cv .elems t l ∧ toElems v = some l := by
  refine list_only cv (ele_only cv ih) (ele_restores cv) ?_ ?_ ?_
  · rintro _ post _ ⟨w, u, w', j, rfl, hw, hj, hw', rfl⟩
    exact ⟨j, rfl, .last hw hj hw'⟩
  · rintro _ post _ ⟨w, u, w', j, rfl, hw, hj, hw', rfl⟩
    exact ⟨j, rfl, by simpa using Reads.lastComma hw hj hw'⟩
  · rintro _ post _ u l v ⟨w, u', w', j, rfl, hw, hj, hw', rfl⟩ hL hv
    exact ⟨j, by simp [toElems, hv], by simpa using Reads.cons hw hj hw' hL⟩

theorem doc_only (n : Nat) : ConOnly (JR cv) (.cell 0) n fun t _ v =>
    ∃ j, Reads cv .doc t j ∧ v = .base (.json j) := by
  induction n with
  | zero =>
    -- no document is empty: both kinds begin with a bracket
    intro pre rest v o' hn h
    have : rest = [] := List.eq_nil_of_length_eq_zero (by omega)
    subst this
    have he : ConErr (JR cv) (.cell 0) pre [] :=
      cell_err cv (or_err (map_err (enclose_err (by simp))) (map_err (enclose_err (by simp))))
    obtain ⟨e, he⟩ := he
    cases h.unique he
  | succ n ih =>
    refine cell_only cv (or_only ?_ ?_)
    · refine (map_only (open_only cv _ (members_only_of cv ih) (lit_only [125]))).mono ?_
      rintro t post v ⟨v1, ⟨t2, t3, rfl, ⟨l, hL, hl⟩, rfl⟩, hv⟩
      rw [hl] at hv
      exact ⟨_, .object hL, (Out.ok.inj hv).symm⟩
    · refine (map_only (open_only cv _ (elems_only_of cv ih) (lit_only [93]))).mono ?_
      rintro t post v ⟨v1, ⟨t2, t3, rfl, ⟨l, hL, hl⟩, rfl⟩, hv⟩
      rw [hl] at hv
      exact ⟨_, .array hL, (Out.ok.inj hv).symm⟩

theorem members_only (n : Nat) : ConOnly (JR cv) (.sep (jMember cv) (.lit [44]) true 1) n fun t _ v =>
    ∃ l, Reads cv .members t l ∧ toMembers v = some l := members_only_of cv (doc_only cv n)

theorem elems_only (n : Nat) : ConOnly (JR cv) (.sep (jEle cv) (.lit [44]) true 1) n fun t _ v =>
    ∃ l, Reads cv .elems t l ∧ toElems v = some l := elems_only_of cv (doc_only cv n)

/-! ## Completeness -/

theorem ws_not {x : UInt8} (h : isWs x = true) : isDigit x = false ∧ x ≠ 46 := by
  simp only [isWs, List.contains_eq_mem, List.mem_cons, List.not_mem_nil, or_false, decide_eq_true_eq] at h
  rcases h with rfl | rfl | rfl | rfl | rfl <;> decide

/-- After white space and a delimiter nothing continues a numeral. -/
theorem follow_ws {w : List UInt8} (hw : WsText w) {c : UInt8} (hc : isDigit c = false ∧ c ≠ 46)
    (q : List UInt8) : HeadIs (fun x => isDigit x = false ∧ x ≠ 46) (w ++ c :: q) := by
  intro x b h
  cases w with
  | nil => cases h; exact hc
  | cons y w => cases h; exact ws_not ((wsText_iff _).1 hw x List.mem_cons_self)

theorem digit_not_ws {x : UInt8} (h : isDigit x = true) : isWs x = false := by
  rw [Bool.eq_false_iff]
  intro h'
  rw [(ws_not h').1] at h
  cases h

/-- An element begins with something that is not white space. -/
theorem elem_head {t : List UInt8} {j : Json ν} (h : Reads cv .elem t j) (post : List UInt8) :
    HeadIs (fun x => isWs x = false) (t ++ post) := by
  intro x b hx
  cases h with
  | null => cases hx; rfl
  | true => cases hx; rfl
  | false => cases hx; rfl
  | str _ => cases hx; rfl
  | num hn _ =>
    obtain ⟨s, ds, fr, rfl, hs, ⟨hd, hdd⟩, _⟩ := hn
    rcases hs with rfl | rfl | rfl
    · cases ds with
      | nil => exact absurd rfl hd
      | cons y l => cases hx; exact digit_not_ws ((isDigit_iff _).2 (hdd x List.mem_cons_self))
    · cases hx; rfl
    · cases hx; rfl
  | nested h =>
    cases h with
    | array _ => cases hx; rfl
    | object _ => cases hx; rfl

/-- What completeness means for each nonterminal. -/
def Complete : (k : Sort') → List UInt8 → k.Den ν → Prop
  | .doc, t, j => ∀ pre post, ConAt (JR cv) (.cell 0) pre t post (.base (.json j))
  | .elem, t, j => ∀ pre post, HeadIs (fun x => isDigit x = false ∧ x ≠ 46) post →
      ConAt (JR cv) (jCore cv) pre t post (.base (.json j))
  | .elems, t, l => ∀ pre post, ∃ vs x, vs ++ x.toList ≠ [] ∧ toElems (Val.list (vs ++ x.toList)) = some l ∧
      BuiltList (JR cv) jsonH none (pre ++ (t ++ 93 :: post)) (jEle cv) (.lit [44]) ()
        (blen pre) vs x () (blen (pre ++ t))
  | .members, t, l => ∀ pre post, ∃ vs x, vs ++ x.toList ≠ [] ∧ toMembers (Val.list (vs ++ x.toList)) = some l ∧
      BuiltList (JR cv) jsonH none (pre ++ (t ++ 125 :: post)) (jMember cv) (.lit [44]) ()
        (blen pre) vs x () (blen (pre ++ t))

theorem ele_at {w t w' q : List UInt8} {c : UInt8} {j : Json ν} (hw : WsText w) (hr : Reads cv .elem t j)
    (h : Complete cv .elem t j) (hw' : WsText w') (hc : isDigit c = false ∧ c ≠ 46 ∧ isWs c = false)
    (pre : List UInt8) : ConAt (JR cv) (jEle cv) pre (w ++ (t ++ w')) (c :: q) (.base (.json j)) := by
  refine pre_at (ws_at hw ?_ pre) (suf_at (h _ _ (follow_ws hw' ⟨hc.1, hc.2.1⟩ q)) (ws_at hw' ?_ _))
  · rw [List.append_assoc]; exact elem_head cv hr _
  · rintro x b ⟨rfl, rfl⟩; exact hc.2.2

theorem member_at {w k w' x t x' q : List UInt8} {c : UInt8} {j : Json ν} (hw : WsText w) (hk : KeyText k)
    (hw' : WsText w') (hx : WsText x) (hr : Reads cv .elem t j)
    (h : Complete cv .elem t j) (hx' : WsText x') (hc : isDigit c = false ∧ c ≠ 46 ∧ isWs c = false)
    (pre : List UInt8) : ConAt (JR cv) (jMember cv) pre
      (w ++ (34 :: (k ++ 34 :: (w' ++ 58 :: (x ++ (t ++ x')))))) (c :: q)
      (.pair (.base (.slice k)) (.base (.json j))) := by
  have hkey : ConAt (JR cv) jKey pre (w ++ (([34] ++ (k ++ [34])) ++ w')) ([58] ++ ((x ++ (t ++ x')) ++ c :: q))
      (.base (.slice k)) := by
    refine pre_at (ws_at hw ?_ pre) (suf_at (enclose_at (lit_at [34] _ _) (key_unit_at hk _) (lit_at [34] _ _)) (ws_at hw' ?_ _))
    · intro y b h; cases h; rfl
    · intro y b h; cases h; rfl
  have := sepOnce_at hkey (lit_at [58] _ _) (ele_at cv hx hr h hx' hc _)
  rw [jMember]
  simpa using this

section Lists
variable {p : Pat UInt8 (JVal ν)} {G : Rules UInt8 (JVal ν)} {pre t u post : List UInt8} {v : Val (JVal ν)}

/-- The last entry, no comma. -/
theorem built_last {c : UInt8} (hc : c ≠ 44) (h : ConAt G p pre t (c :: post) v) :
    BuiltList G jsonH none (pre ++ (t ++ c :: post)) p (.lit [44]) () (blen pre) [] (some v) () (blen (pre ++ t)) := by
  refine ⟨(), _, .nil _ _, blen (pre ++ t), .literal, h, ?_⟩
  have := lit_err (G := G) (pre ++ t) (c :: post) [44] (no_lit hc)
  rwa [List.append_assoc] at this

/-- An entry and a comma, then the rest of the list. -/
theorem built_cons {vs : List (Val (JVal ν))} {x : Option (Val (JVal ν))} {o' : Nat}
    (h : ConAt G p pre t (44 :: post) v)
    (h' : BuiltList G jsonH none ((pre ++ (t ++ [44])) ++ post) p (.lit [44]) () (blen (pre ++ (t ++ [44]))) vs x () o') :
    BuiltList G jsonH none (pre ++ (t ++ 44 :: post)) p (.lit [44]) () (blen pre) (v :: vs) x () o' := by
  have hd : (pre ++ (t ++ [44])) ++ post = pre ++ (t ++ 44 :: post) := by simp
  rw [hd] at h'
  obtain ⟨⟨⟩, o1, hb, hx⟩ := h'
  obtain ⟨s, hs⟩ := lit_at (G := G) [44] (pre ++ t) post
  refine ⟨(), o1, .cons h (ss := s) (o2 := blen (pre ++ (t ++ [44]))) ?_ hb, hx⟩
  simpa using hs

/-- Nothing more. -/
theorem built_nil {rest : List UInt8} (h : ConErr G p pre rest) :
    BuiltList G jsonH none (pre ++ rest) p (.lit [44]) () (blen pre) [] none () (blen pre) := by
  obtain ⟨e, h⟩ := h
  exact ⟨(), _, .nil _ _, e, h⟩

theorem sep_at {vs : List (Val (JVal ν))} {x : Option (Val (JVal ν))} (hne : vs ++ x.toList ≠ [])
    (h : BuiltList G jsonH none (pre ++ (t ++ post)) p (.lit [44]) () (blen pre) vs x () (blen (pre ++ t))) :
    ConAt G (.sep p (.lit [44]) true 1) pre t post (Val.list (vs ++ x.toList)) := by
  unfold ConAt
  rw [(C16_sep_construct _ _ _ _ _ _).1]
  refine ⟨vs, x, h, ?_⟩
  cases x with
  | none =>
    refine .inl ⟨rfl, ?_, by simp⟩
    cases vs with
    | nil => exact absurd rfl hne
    | cons _ _ => simp
  | some y => exact .inr (.inl ⟨y, rfl, rfl, by omega, rfl⟩)

end Lists

theorem complete {k : Sort'} {t : List UInt8} {j : k.Den ν} (h : Reads cv k t j) : Complete cv k t j := by
  have c44 : isDigit 44 = false ∧ (44 : UInt8) ≠ 46 ∧ isWs 44 = false := by decide
  have c93 : isDigit 93 = false ∧ (93 : UInt8) ≠ 46 ∧ isWs 93 = false := by decide
  have c125 : isDigit 125 = false ∧ (125 : UInt8) ≠ 46 ∧ isWs 125 = false := by decide
  induction h with
  | @array t l _ ih =>
    intro pre post
    rw [cell_at]
    obtain ⟨vs, x, hne, hconv, hb⟩ := ih (pre ++ [91]) post
    refine or_at_right (map_err (enclose_err (no_lit (by decide)))) ?_
    refine map_at (v := Val.list (vs ++ x.toList)) (enclose_at (t1 := [91]) (lit_at [91] _ _) (sep_at hne hb)
      (lit_at [93] _ _)) ?_
    rw [hconv]
  | @object t l _ ih =>
    intro pre post
    rw [cell_at]
    obtain ⟨vs, x, hne, hconv, hb⟩ := ih (pre ++ [123]) post
    refine or_at_left ?_
    refine map_at (v := Val.list (vs ++ x.toList)) (enclose_at (t1 := [123]) (lit_at [123] _ _) (sep_at hne hb)
      (lit_at [125] _ _)) ?_
    rw [hconv]
  | null =>
    intro pre post _
    refine or_at_right ⟨_, num_fails pre _ (by rintro x t ⟨rfl, rfl⟩; decide)⟩ ?_
    refine or_at_right (map_err (enclose_err (no_lit (by decide)))) ?_
    refine or_at_right (lit_map_err (no_lit (by decide))) ?_
    refine or_at_right (lit_map_err (no_lit (by decide))) ?_
    exact or_at_left (lit_map_at _ _ _ _)
  | true =>
    intro pre post _
    refine or_at_right ⟨_, num_fails pre _ (by rintro x t ⟨rfl, rfl⟩; decide)⟩ ?_
    refine or_at_right (map_err (enclose_err (no_lit (by decide)))) ?_
    exact or_at_left (lit_map_at _ _ _ _)
  | false =>
    intro pre post _
    refine or_at_right ⟨_, num_fails pre _ (by rintro x t ⟨rfl, rfl⟩; decide)⟩ ?_
    refine or_at_right (map_err (enclose_err (no_lit (by decide)))) ?_
    refine or_at_right (lit_map_err (no_lit (by decide))) ?_
    exact or_at_left (lit_map_at _ _ _ _)
  | @str t ht hc =>
    intro pre post _
    refine or_at_right ⟨_, num_fails pre _ (by rintro x t ⟨rfl, rfl⟩; decide)⟩ ?_
    exact or_at_left (str_at ht hc _ _)
  | num h1 h2 =>
    intro pre post hp
    exact or_at_left (num_at h1 h2 hp pre)
  | @nested t j hd ih =>
    intro pre post _
    have ih := ih pre post
    have : ∃ c b, t = c :: b ∧ (c = 91 ∨ c = 123) := by
      cases hd with
      | array _ => exact ⟨_, _, rfl, .inl rfl⟩
      | object _ => exact ⟨_, _, rfl, .inr rfl⟩
    obtain ⟨c, b, rfl, hc⟩ := this
    have nl : ∀ (y : UInt8) (l : List UInt8), y ≠ 91 → y ≠ 123 → ¬ ∃ r, (c :: b) ++ post = (y :: l) ++ r := by
      intro y l h1 h2
      rcases hc with rfl | rfl
      · exact no_lit fun h => h1 h.symm
      · exact no_lit fun h => h2 h.symm
    refine or_at_right ⟨_, num_fails pre _ (by
      rintro x t ⟨rfl, rfl⟩; rcases hc with rfl | rfl <;> decide)⟩ ?_
    refine or_at_right (map_err (enclose_err (nl _ _ (by decide) (by decide)))) ?_
    refine or_at_right (lit_map_err (nl _ _ (by decide) (by decide))) ?_
    refine or_at_right (lit_map_err (nl _ _ (by decide) (by decide))) ?_
    exact or_at_right (lit_map_err (nl _ _ (by decide) (by decide))) ih
  | @last w t w' j hw hr hw' ih =>
    intro pre post
    exact ⟨[], some (.base (.json j)), by simp, rfl, built_last (by decide) (ele_at cv hw hr ih hw' c93 pre)⟩
  | @lastComma w t w' j hw hr hw' ih =>
    intro pre post
    refine ⟨[.base (.json j)], none, by simp, rfl, ?_⟩
    have := built_cons (ele_at cv hw hr ih hw' c44 pre) (built_nil (ele_err cv _ post))
    simpa using this
  | @cons w t w' j u l hw hr hw' _ ih ihl =>
    intro pre post
    obtain ⟨vs, x, _, hconv, hb⟩ := ihl (pre ++ ((w ++ (t ++ w')) ++ [44])) post
    refine ⟨.base (.json j) :: vs, x, by simp, ?_, ?_⟩
    · simp only [Val.list, List.cons_append, List.foldr_cons, toElems] at hconv ⊢
      rw [hconv]; rfl
    · have := built_cons (ele_at cv hw hr ih hw' c44 pre) hb
      simpa using this
  | @lastM w k w' x t x' j hw hk hw' hx hr hx' ih =>
    intro pre post
    exact ⟨[], some _, by simp, rfl, built_last (by decide) (member_at cv hw hk hw' hx hr ih hx' c125 pre)⟩
  | @lastCommaM w k w' x t x' j hw hk hw' hx hr hx' ih =>
    intro pre post
    refine ⟨[.pair (.base (.slice k)) (.base (.json j))], none, by simp, rfl, ?_⟩
    have := built_cons (member_at cv hw hk hw' hx hr ih hx' c44 pre) (built_nil (member_err cv _ post))
    simpa using this
  | @consM w k w' x t x' j u l hw hk hw' hx hr hx' _ ih ihl =>
    intro pre post
    obtain ⟨vs, y, _, hconv, hb⟩ := ihl (pre ++ ((w ++ (34 :: (k ++ 34 :: (w' ++ 58 :: (x ++ (t ++ x')))))) ++ [44])) post
    refine ⟨.pair (.base (.slice k)) (.base (.json j)) :: vs, y, by simp, ?_, ?_⟩
    rotate_left
    · have := built_cons (member_at cv hw hk hw' hx hr ih hx' c44 pre) hb
      simpa using this
    · simp only [Val.list, List.cons_append, List.foldr_cons, toMembers] at hconv ⊢
      rw [hconv]; rfl

end

end Neure
