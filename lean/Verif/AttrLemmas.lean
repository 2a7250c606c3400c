import Verif.Attr
import Verif.PropsSkip
import Verif.PropsCtorBase
import Verif.PropsCtorComb
import Verif.PropsCtorLoop
import Verif.PropsCtor
/-!
# Lemmas for C63
-/

namespace Neure

set_option linter.unusedSectionVars false
set_option linter.unusedSimpArgs false

variable {ι β σ : Type} [Item ι] {G : Rules ι β} {H : Handler ι β σ} {pol : Option (Pat ι β)}
  {R : Nat → Peg ι} {V : Nat → VPeg ι β} {g : List ι → List ι → β} {X : Reading ι β}

namespace Attr

theorem ford_suffix {e : Peg ι} {x y} (h : Ford R e x (some y)) : ∃ t, x = t ++ y := by
  generalize hr : some y = r at h
  induction h generalizing y with
  | eps => cases hr; exact ⟨[], rfl⟩
  | cls_ok => cases hr; exact ⟨[_], rfl⟩
  | nt _ ih => exact ih hr
  | seq_ok _ _ i1 i2 => obtain ⟨t, rfl⟩ := i1 rfl; obtain ⟨t', rfl⟩ := i2 hr; exact ⟨t ++ t', by simp⟩
  | alt_1 _ ih => exact ih hr
  | alt_2 _ _ _ ih => exact ih hr
  | star_end => cases hr; exact ⟨[], rfl⟩
  | star_more _ _ i1 i2 => obtain ⟨t, rfl⟩ := i1 rfl; obtain ⟨t', rfl⟩ := i2 hr; exact ⟨t ++ t', by simp⟩
  | not_ok => cases hr; exact ⟨[], rfl⟩
  | _ => cases hr

/-- What the lemmas need to know about the patterns that are only matched. -/
structure ReadOk (X : Reading ι β) (G : Rules ι β) (R : Nat → Peg ι) (pol : Option (Pat ι β)) : Prop where
  delim_ok : ∀ {p e}, X.delim p e → ∀ {pre t y : List ι}, Ford R e (t ++ y) (some y) →
    ∃ s, Runs G pol (pre ++ (t ++ y)) p (blen pre) (.ok s (blen pre + blen t))
  delim_no : ∀ {p e}, X.delim p e → ∀ {pre x : List ι}, Ford R e x none →
    ∃ er w z, x = w ++ z ∧ Ford R (.opt X.skip) x (some z) ∧
      Runs G pol (pre ++ x) p (blen pre) (.err er (blen pre + blen w))
  delim_halt : ∀ {p e}, X.delim p e → ∀ {pre x : List ι} {res},
    Runs G pol (pre ++ x) p (blen pre) res → ∃ r, Ford R e x r
  text_ok : ∀ {p e}, X.text p e → ∀ {pre w t y : List ι}, Ford R X.skip (w ++ (t ++ y)) (some (t ++ y)) →
    Ford R e (t ++ y) (some y) →
    Runs G pol (pre ++ (w ++ (t ++ y))) p (blen pre)
      (.ok ⟨blen pre + blen w, blen t⟩ (blen pre + blen w + blen t))
  text_no : ∀ {p e}, X.text p e → ∀ {pre x : List ι}, Ford R (.seq X.skip e) x none →
    ∃ er w z, x = w ++ z ∧ Ford R (.opt X.skip) x (some z) ∧
      Runs G pol (pre ++ x) p (blen pre) (.err er (blen pre + blen w))
  text_halt : ∀ {p e}, X.text p e → ∀ {pre x : List ι} {res},
    Runs G pol (pre ++ x) p (blen pre) res → ∃ r, Ford R (.seq X.skip e) x r

theorem readOk_plain (hG : RulesAsPeg G R) : ReadOk .plain G R none where
  delim_ok := by
    intro p e hp pre t y hf
    exact ⟨_, ((C58_peg hG hp pre (t ++ y)).1 _ _).mpr ⟨t, y, rfl, hf, rfl, rfl⟩⟩
  delim_no := by
    intro p e hp pre x hf
    obtain ⟨er, h⟩ := ((C58_peg hG hp pre x).2.1 _).mpr ⟨hf, rfl⟩
    exact ⟨er, [], x, rfl, .alt_1 .eps, by simpa using h⟩
  delim_halt := by
    intro p e hp pre x res h
    exact (C58_peg_halts hG hp pre x).mp ⟨res, h⟩
  text_ok := by
    intro p e hp pre w t y hw hf
    cases w with
    | nil => simpa using ((C58_peg hG hp pre (t ++ y)).1 _ _).mpr ⟨t, y, rfl, hf, rfl, rfl⟩
    | cons c w =>
      have : Ford R (Peg.eps : Peg ι) (c :: w ++ (t ++ y)) (some (t ++ y)) := hw
      have := congrArg (Option.map List.length) (this.unique .eps)
      simp at this; omega
  text_no := by
    intro p e hp pre x hf
    have hf : Ford R (.seq .eps e) x none := hf
    have hf : Ford R e x none := by
      cases hf with
      | seq_ok h1 h2 => cases h1; exact h2
      | seq_fail h => cases h
    obtain ⟨er, h⟩ := ((C58_peg hG hp pre x).2.1 _).mpr ⟨hf, rfl⟩
    exact ⟨er, [], x, rfl, .alt_1 .eps, by simpa using h⟩
  text_halt := by
    intro p e hp pre x res h
    obtain ⟨r, hr⟩ := (C58_peg_halts hG hp pre x).mp ⟨res, h⟩
    exact ⟨r, .seq_ok .eps hr⟩

theorem prim_leaf {p : Pat ι β} {e : Peg ι} (hp : Primitive p) (ha : AsPeg p e) : LeafOk G R p e := by
  cases ha with
  | empty => exact pegLeaf_empty
  | fail => exact pegLeaf_fail
  | anchorEnd => exact pegLeaf_anchorEnd
  | consumeAll => exact pegLeaf_consumeAll
  | lit l => exact pegLeaf_lit l
  | once u => exact pegLeaf_once u
  | many0 u => exact pegLeaf_many0 u
  | many1 u => exact pegLeaf_many1 u
  | optU u => exact pegLeaf_optU u
  | between u m n hu hmn => exact pegLeaf_between u m n hu hmn
  | times u r m n hu hc => exact pegLeaf_times u r m n hu hc
  | thenU u v hu hv => exact pegLeaf_thenU u v hu hv
  | _ => exact absurd hp id

/-- A primitive pattern in a skipping context, behind what was skipped. -/
theorem prim_runs {q p : Pat ι β} {e : Peg ι} (hp : Primitive p) (ha : AsPeg p e) (pre x : List ι) :
    ∃ r res, Ford R e x r ∧ Shape pre x r res ∧ Parses G (some q) (pre ++ x) p (blen pre) res := by
  obtain ⟨r, hf, res, hr, hs⟩ := prim_leaf (G := G) (R := R) hp ha pre x
  refine ⟨r, res, hf, hs, parses_iff.mpr ?_⟩
  rw [primitive_policy_free hp (some q) none]
  exact parses_iff.mp hr

theorem skip_ok {q : Pat ι β} {W : Peg ι} (hq : SkipReads G R q W) {pre w z : List ι}
    (hw : Ford R W (w ++ z) (some z)) :
    ∃ s, Runs G none (pre ++ (w ++ z)) q (blen pre) (.ok s (blen pre + blen w)) := by
  obtain ⟨res, hr⟩ := hq.halt pre _ _ hw
  rcases hq.run pre _ res hr with ⟨t, y, s, hx, hf, rfl⟩ | ⟨hf, _⟩
  · cases hw.unique hf
    rw [List.append_cancel_right hx]
    rw [List.append_cancel_right hx] at hr
    exact ⟨s, hr⟩
  · cases hw.unique hf

theorem skip_no {q : Pat ι β} {W : Peg ι} (hq : SkipReads G R q W) {pre x : List ι}
    (hw : Ford R W x none) : ∃ er, Runs G none (pre ++ x) q (blen pre) (.err er (blen pre)) := by
  obtain ⟨res, hr⟩ := hq.halt pre _ _ hw
  rcases hq.run pre _ res hr with ⟨t, y, s, hx, hf, rfl⟩ | ⟨_, er, rfl⟩
  · cases hw.unique hf
  · exact ⟨er, hr⟩

theorem readOk_skipping {q : Pat ι β} {W : Peg ι} (hq : SkipReads G R q W) (hi : SkipOnce R W)
    (hG : RulesAsPegIn W G R) : ReadOk (.skipping W) G R (some q) where
  delim_ok := by
    rintro p e ⟨e', hp, rfl⟩ pre t y hf
    exact ((C62_skip_peg hq hi hG hp pre (t ++ y)).1 _).mpr ⟨t, y, rfl, hf, rfl⟩
  delim_no := by
    rintro p e ⟨e', hp, rfl⟩ pre x hf
    obtain ⟨_, herr, hpanic⟩ := C62_skip_peg hq hi hG hp pre x
    obtain ⟨res, hr⟩ := (C62_skip_halts hq hi hG hp pre x).mpr ⟨_, hf⟩
    cases res with
    | panic => exact absurd hr hpanic
    | ok s o' =>
      obtain ⟨_, _, _, hf', _⟩ := ((C62_skip_peg hq hi hG hp pre x).1 o').mp ⟨s, hr⟩
      cases hf.unique hf'
    | err er o' =>
      obtain ⟨_, w, z, hx, hz, rfl⟩ := (herr o').mp ⟨er, hr⟩
      exact ⟨er, w, z, hx, hz, hr⟩
  delim_halt := by
    rintro p e ⟨e', hp, rfl⟩ pre x res h
    exact (C62_skip_halts hq hi hG hp pre x).mp ⟨res, h⟩
  text_ok := by
    rintro p e ⟨hp, ha⟩ pre w t y hw hf
    obtain ⟨s, hs⟩ := skip_ok (pre := pre) hq hw
    obtain ⟨r, res, hf', hsh, hr⟩ := prim_runs (G := G) (R := R) (q := q) hp ha (pre ++ w) (t ++ y)
    cases hf.unique hf'
    obtain ⟨t', ht, rfl⟩ := hsh
    rw [← List.append_cancel_right ht, blen_append, List.append_assoc] at hr
    exact (C31_policy_runs_first q p _ _).mpr (.inl ⟨s, _, hs, hr⟩)
  text_no := by
    rintro p e ⟨hp, ha⟩ pre x hf
    have hf0 : Ford R (.seq W e) x none := hf
    clear hf
    cases hf0 with
    | seq_fail hw =>
      obtain ⟨er, he⟩ := skip_no (pre := pre) hq hw
      exact ⟨er, [], x, rfl, .alt_2 hw .eps,
        (C31_policy_runs_first q p _ _).mpr (.inr (.inl ⟨er, _, he, by simp⟩))⟩
    | @seq_ok _ _ _ y _ hw hf =>
      obtain ⟨w, rfl⟩ := ford_suffix hw
      obtain ⟨s, hs⟩ := skip_ok (pre := pre) hq hw
      obtain ⟨r, res, hf', hsh, hr⟩ := prim_runs (G := G) (R := R) (q := q) hp ha (pre ++ w) y
      cases hf.unique hf'
      obtain ⟨er, rfl⟩ := hsh
      rw [List.append_assoc, blen_append] at hr
      exact ⟨er, w, y, rfl, .alt_1 hw, (C31_policy_runs_first q p _ _).mpr (.inl ⟨s, _, hs, hr⟩)⟩
  text_halt := by
    rintro p e ⟨hp, ha⟩ pre x res h
    show ∃ r, Ford R (.seq W e) x r
    rcases (C31_policy_runs_first q p _ _).mp h with ⟨s, o1, hs, _⟩ | ⟨er, o1, he, _⟩ | ⟨hp, _⟩
    · rcases hq.run pre x _ hs with ⟨t, y, _, _, hf, _⟩ | ⟨_, _, h⟩
      · obtain ⟨r, hf', _⟩ := prim_leaf (G := G) (R := R) hp ha pre y
        exact ⟨r, .seq_ok hf hf'⟩
      · cases h
    · rcases hq.run pre x _ he with ⟨t, y, _, _, _, h⟩ | ⟨hf, _, _⟩
      · cases h
      · exact ⟨none, .seq_fail hf⟩
    · rcases hq.run pre x _ hp with ⟨t, y, _, _, _, h⟩ | ⟨_, _, h⟩ <;> cases h

/-! ## From derivations to runs -/

/-- What a run of `construct` looks like when the expression has result `r`. -/
def Got (X : Reading ι β) (G : Rules ι β) (H : Handler ι β σ) (pol : Option (Pat ι β))
    (R : Nat → Peg ι) (d : List ι) (p : Pat ι β) (st : σ) (pre x : List ι) :
    Option (Val β × List ι) → Prop
  | some (v, y) => ∃ t, x = t ++ y ∧ Constructs G H pol d p st (blen pre) (.ok v st (blen pre + blen t))
  | none => ∃ e o', Constructs G H pol d p st (blen pre) (.err e st o') ∧
      ∀ T, Tail X G p T → ∃ w z, x = w ++ z ∧ Ford R T x (some z) ∧ o' = blen pre + blen w

theorem Got.restored {d : List ι} {p : Pat ι β} {st : σ} {pre x : List ι} {e : Error}
    (h : Constructs G H pol d p st (blen pre) (.err e st (blen pre)))
    (ht : ∀ T, Tail X G p T → T = .eps) : Got X G H pol R d p st pre x none := by
  refine ⟨e, _, h, fun T hT => ?_⟩
  rw [ht T hT]
  exact ⟨[], x, rfl, .eps, by simp⟩

/-- The statement for lists. -/
def LoopGot (X : Reading ι β) (G : Rules ι β) (H : Handler ι β σ) (pol : Option (Pat ι β))
    (d : List ι) : VPeg ι β → List ι → Option (Val β × List ι) → Prop
  | .upto a n T, x, r => ∃ vs y, r = some (Val.list vs, y) ∧ (∀ n', n = some n' → vs.length ≤ n') ∧
      ∀ p pre (st : σ) more cnt vals fin, AsVal X G p a → Tail X G p T → d = pre ++ x →
        (∀ k, more (cnt + k) = true ↔ ∀ n', n = some n' → k < n') →
        ∃ t, x = t ++ y ∧ conRepL (conL G H pol d) p more (fun _ => true) fin cnt vals st (blen pre) =
          fin (cnt + vs.length) (vals ++ vs) st (blen pre + blen t)
  | .seps a es keep T Ts, x, r => ∃ vs y, r = some (Val.list vs, y) ∧
      ∀ p s pre (st : σ) cnt vals fin, AsVal X G p a → Tail X G p T → X.delim s es → Ts = .opt X.skip →
        d = pre ++ x → ∃ t, x = t ++ y ∧
        conSepL (conL G H pol d) (matL G pol d s) p keep (fun _ => true) (fun _ => true) fin cnt vals st
          (blen pre) = fin (cnt + vs.length) (vals ++ vs) st (blen pre + blen t)
  | _, _, _ => True

theorem guarded_tail {p : Pat ι β} (hp : Guarded p) {T : Peg ι} (h : Tail X G p T) : T = .eps := by
  cases h <;> first | rfl | exact absurd hp id | skip
  next h => cases p <;> first | exact absurd hp id | exact absurd h id

theorem list_inj {vs ws : List (Val β)} (h : Val.list vs = Val.list ws) : vs = ws := by
  induction vs generalizing ws with
  | nil => cases ws <;> simp_all [Val.list]
  | cons v vs ih =>
    cases ws with
    | nil => simp [Val.list] at h
    | cons w ws =>
      simp only [Val.list, List.foldr_cons, Val.cons.injEq] at h
      rw [h.1, ih (ws := ws) h.2]

section
variable {d : List ι} {p : Pat ι β} {st : σ} {pre x y : List ι} {v : Val β}

theorem Got.ok (h : Got X G H pol R d p st pre x (some (v, y))) :
    ∃ t, x = t ++ y ∧ conL G H pol d p st (blen pre) = some (.ok v st (blen pre + blen t)) := by
  obtain ⟨t, hx, h⟩ := h; exact ⟨t, hx, constructs_iff.mp h⟩

theorem Got.no (h : Got X G H pol R d p st pre x none) :
    ∃ e o', conL G H pol d p st (blen pre) = some (.err e st o') ∧
      ∀ T, Tail X G p T → ∃ w z, x = w ++ z ∧ Ford R T x (some z) ∧ o' = blen pre + blen w := by
  obtain ⟨e, o', h, hT⟩ := h; exact ⟨e, o', constructs_iff.mp h, hT⟩

theorem Got.mk {t : List ι} (hx : x = t ++ y)
    (h : conL G H pol d p st (blen pre) = some (.ok v st (blen pre + blen t))) :
    Got X G H pol R d p st pre x (some (v, y)) := ⟨t, hx, constructs_iff.mpr h⟩

theorem Got.eps {e : Error} (h : conL G H pol d p st (blen pre) = some (.err e st (blen pre)))
    (ht : ∀ T, Tail X G p T → T = .eps) : Got X G H pol R d p st pre x none :=
  Got.restored (constructs_iff.mpr h) ht
end

theorem Got.guard {d : List ι} {p : Pat ι β} {st : σ} {pre x : List ι} {e : Error} {o' : Nat}
    (h : conL G H pol d p st (blen pre) = some (.err e st o'))
    (hp : Guarded p) : Got X G H pol R d p st pre x none := by
  have h := constructs_iff.mpr h
  rw [C20_guarded_restores p hp st _ e st o' h] at h
  exact Got.restored h fun T => guarded_tail hp

theorem conL_enclose_eq {d : List ι} (a b c : Pat ι β) (st : σ) (o : Nat) :
    conL G H pol d (.enclose a b c) st o = conL G H pol d (.pre a (.suf b c)) st o := by
  rw [conL_enclose, conL_pre]
  congr 1; funext _ o1
  rw [conL_suf]
  cases conL G H pol d b st o1 with
  | none => rfl
  | some r =>
    cases r with
    | ok v st1 o2 =>
      simp only [caseC]
      cases matL G pol d c o2 with
      | none => rfl
      | some r => cases r <;> rfl
    | err => rfl
    | panic => rfl

theorem conL_sepOnce_eq {d : List ι} (a b c : Pat ι β) (st : σ) (o : Nat) :
    conL G H pol d (.sepOnce a b c) st o = conL G H pol d (.thn a (.pre b c)) st o := by
  rw [conL_sepOnce, conL_thn]
  congr 1; funext v st1 o1
  rw [conL_pre]
  cases matL G pol d b o1 with
  | none => rfl
  | some r =>
    cases r with
    | ok s o2 =>
      simp only [caseM]
      cases conL G H pol d c st1 o2 with
      | none => rfl
      | some r => cases r <;> rfl
    | err => rfl
    | panic => rfl

theorem conL_choice_cons {d : List ι} (er : Error) (p : Pat ι β) (k : Option (Val β)) (items) (st : σ) (o : Nat) :
    conL G H pol d (.choice er ((p, k) :: items)) st o = caseC (conL G H pol d p st o)
      (fun v st1 o1 => some (.ok (tagged k v) st1 o1))
      (fun _ st1 _ => conL G H pol d (.choice er items) st1 o) := by
  rw [conL_choice, conChoice]
  simp only [conL_choice]

theorem suffix_le {a b c e : List ι} (h : a ++ b = c ++ e) :
    (e.length < b.length → blen a < blen c) ∧ (b.length ≤ e.length → blen c ≤ blen a) := by
  rcases List.append_eq_append_iff.mp h with ⟨w, rfl, rfl⟩ | ⟨w, rfl, rfl⟩
  · refine ⟨fun h => ?_, fun h => ?_⟩
    · cases w with
      | nil => simp at h
      | cons i w => have := blen_pos_cons i w; simp only [blen_append]; omega
    · simp only [List.length_append] at h
      have : w = [] := List.eq_nil_of_length_eq_zero (by omega)
      simp [this]
  · refine ⟨fun h => ?_, fun h => ?_⟩
    · simp only [List.length_append] at h; omega
    · simp only [blen_append]; omega

/-- A leaf constructs as its text says, whichever way the text is read. -/
theorem leaf_text (hX : ReadOk X G R pol) {d : List ι} (hH : Handles H d g) {p : Pat ι β} {e : Peg ι}
    (hl : IsLeaf p) (hn : ∀ q, p ≠ .pat q) (ht : X.text p e) {st : σ} {pre x : List ι} (hd : d = pre ++ x)
    {res} (h : Constructs G H pol d p st (blen pre) res) :
    ∃ r, Ford R (.seq X.skip e) x r ∧ match r with
      | some y => ∃ t v, x = t ++ y ∧ res = .ok v st (blen pre + blen t)
      | none => ∃ er o', res = .err er st o' := by
  have hL : Leaf p := by cases p <;> first | trivial | exact absurd hl id | exact absurd rfl (hn _)
  obtain ⟨r0, hr0⟩ : ∃ r0, Runs G pol d p (blen pre) r0 := by
    have h' := constructs_iff.mp h
    rw [conL_leaf (hp := hL)] at h'
    cases hm : matL G pol d p (blen pre) with
    | none => rw [hm] at h'; cases h'
    | some r0 => exact ⟨r0, runs_iff.mpr hm⟩
  obtain ⟨r, hr⟩ := hX.text_halt (pre := pre) ht (hd ▸ hr0)
  refine ⟨r, hr, ?_⟩
  rcases r with _ | y
  · obtain ⟨er, w, z, rfl, hz, hr1⟩ := hX.text_no (pre := pre) ht hr
    rw [← hd] at hr1
    exact ⟨er, _, h.unique (((C52_primitive_construct _ hL _ _).2.1 _ _ _).mpr (.inl ⟨hr1, rfl⟩))⟩
  · cases hr with
    | seq_ok hw hf =>
      obtain ⟨w, rfl⟩ := ford_suffix hw
      obtain ⟨t, rfl⟩ := ford_suffix hf
      have h1 := hX.text_ok (pre := pre) ht hw hf
      rw [← hd] at h1
      have h2 := hH (pre ++ w) t y (blen pre + blen w + blen t) st (by simp [hd])
      rw [blen_append] at h2
      refine ⟨w ++ t, .base (g t y), by simp, ?_⟩
      rw [blen_append, ← Nat.add_assoc]
      exact h.unique (((C52_primitive_construct _ hL _ _).1 _ _ _).mpr ⟨_, _, h1, h2, rfl⟩)

theorem complete (hX : ReadOk X G R pol) (hV : RulesAsVal X G V) {d : List ι} (hH : Handles H d g)
    {E : VPeg ι β} {x r} (hy : Yields R V g E x r) :
    (∀ p pre (st : σ), AsVal X G p E → d = pre ++ x → Got X G H pol R d p st pre x r) ∧
    LoopGot X G H pol d E x r := by
  have dok : ∀ {s e} {pre t y : List ι}, X.delim s e → d = pre ++ (t ++ y) → Ford R e (t ++ y) (some y) →
      ∃ sp, matL G pol d s (blen pre) = some (.ok sp (blen pre + blen t)) := by
    intro s e pre t y hs hd hf
    obtain ⟨sp, h⟩ := hX.delim_ok (pre := pre) hs hf
    exact ⟨sp, hd ▸ runs_iff.mp h⟩
  have dno : ∀ {s e} {pre x : List ι}, X.delim s e → d = pre ++ x → Ford R e x none →
      ∃ er w z, x = w ++ z ∧ Ford R (.opt X.skip) x (some z) ∧
        matL G pol d s (blen pre) = some (.err er (blen pre + blen w)) := by
    intro s e pre x hs hd hf
    obtain ⟨er, w, z, hx, hz, h⟩ := hX.delim_no (pre := pre) hs hf
    exact ⟨er, w, z, hx, hz, hd ▸ runs_iff.mp h⟩
  induction hy with
  | @text_ok W e x t y hw hf =>
    refine ⟨fun p pre st hp hd => ?_, trivial⟩
    have key : ∀ q, X.text q e → W = X.skip → ∃ w, x = w ++ (t ++ y) ∧
        Runs G pol d q (blen pre) (.ok ⟨blen pre + blen w, blen t⟩ (blen pre + blen w + blen t)) ∧
        H d (blen pre + blen w + blen t) ⟨blen pre + blen w, blen t⟩ st = (.ok (g t y), st) := by
      rintro q hq rfl
      obtain ⟨w, rfl⟩ := ford_suffix hw
      refine ⟨w, rfl, ?_, ?_⟩
      · rw [hd]; exact hX.text_ok hq hw hf
      · rw [← blen_append]
        exact hH (pre ++ w) t y _ st (by rw [hd]; simp)
    cases hp with
    | leaf hl hn ht =>
      obtain ⟨w, rfl, h1, h2⟩ := key _ ht rfl
      refine ⟨w ++ t, by simp, ?_⟩
      have : Leaf p := by cases p <;> first | trivial | exact absurd hl id | exact absurd rfl (hn _)
      rw [blen_append, ← Nat.add_assoc]
      exact ((C52_primitive_construct _ this _ _).1 _ _ _).mpr ⟨_, _, h1, h2, rfl⟩
    | pat ht =>
      obtain ⟨w, rfl, h1, h2⟩ := key _ ht rfl
      refine ⟨w ++ t, by simp, ?_⟩
      rw [blen_append, ← Nat.add_assoc]
      exact ((C52_pat_construct _ _ _).1 _ _ _).mpr ⟨_, _, h1, h2, rfl⟩
  | @text_no W e x hf =>
    refine ⟨fun p pre st hp hd => ?_, trivial⟩
    cases hp with
    | leaf hl hn ht =>
      obtain ⟨er, w, z, rfl, hz, hr⟩ := hX.text_no (pre := pre) ht hf
      rw [← hd] at hr
      have : Leaf p := by cases p <;> first | trivial | exact absurd hl id | exact absurd rfl (hn _)
      refine ⟨er, _, ((C52_primitive_construct _ this _ _).2.1 _ _ _).mpr (.inl ⟨hr, rfl⟩), fun T hT => ?_⟩
      have : T = .opt X.skip := by
        cases hT <;> first | rfl | exact absurd hl id | skip
        next h => cases p <;> first | exact absurd hl id | exact absurd h id
      subst this
      exact ⟨w, z, rfl, hz, rfl⟩
    | pat ht =>
      obtain ⟨er, w, z, rfl, hz, hr⟩ := hX.text_no (pre := pre) ht hf
      rw [← hd] at hr
      refine ⟨er, _, ((C52_pat_construct _ _ _).2.1 _ _ _).mpr (.inl ⟨hr, rfl⟩), fun T hT => ?_⟩
      have : T = .opt X.skip := by
        cases hT with
        | leaf => rfl
        | guarded h => exact absurd h id
      subst this
      exact ⟨w, z, rfl, hz, rfl⟩
  | fail =>
    refine ⟨fun p pre st hp hd => ?_, trivial⟩
    cases hp with
    | choice_nil er =>
      exact Got.restored (e := er) (constructs_iff.mpr (by rw [conL_choice, conChoice]))
        fun T hT => guarded_tail (p := .choice er []) trivial hT
  | @nt i x r hy ih =>
    refine ⟨fun p pre st hp hd => ?_, trivial⟩
    cases hp with
    | cell =>
      rcases hV i with ⟨q, hq, ha⟩ | ⟨hq, hn⟩
      · have h := ih.1 q pre st ha hd
        have e := fun r => (C52_rule_construct (G := G) (H := H) (pol := pol) (d := d) i st (blen pre) r).1 q hq
        cases r with
        | some vy =>
          obtain ⟨t, hx, h⟩ := h
          exact ⟨t, hx, (e _).mpr h⟩
        | none =>
          obtain ⟨er, o', h, hT⟩ := h
          refine ⟨er, o', (e _).mpr h, fun T hT' => ?_⟩
          cases hT' with
          | leaf h => exact absurd h id
          | guarded h => exact absurd h id
          | cell hq' hT' => rw [hq] at hq'; cases hq'; exact hT T hT'
          | cell_none hq' => rw [hq] at hq'; cases hq'
      · rw [hn] at hy
        cases hy
        refine ⟨_, _, (C52_rule_construct (G := G) (H := H) (pol := pol) (d := d) i st (blen pre) _).2 hq |>.mpr rfl,
          fun T hT' => ?_⟩
        cases hT' with
        | leaf h => exact absurd h id
        | guarded h => exact absurd h id
        | cell hq' hT' => rw [hq] at hq'; cases hq'
        | cell_none hq' => exact ⟨[], x, rfl, .eps, by simp⟩
  | @pair_ok a b x y z v w _ _ ih1 ih2 =>
    refine ⟨fun p pre st hp hd => ?_, trivial⟩
    obtain ⟨pa, pb, ha, hb, he⟩ : ∃ pa pb, AsVal X G pa a ∧ AsVal X G pb b ∧
        ∀ o, conL G H pol d p st o = conL G H pol d (.thn pa pb) st o := by
      cases hp with
      | thn ha hb => exact ⟨_, _, ha, hb, fun _ => rfl⟩
      | sepOnce ha hs hb => exact ⟨_, _, ha, .pre hs hb, fun _ => conL_sepOnce_eq ..⟩
    obtain ⟨t, rfl, h1⟩ := (ih1.1 pa pre st ha hd).ok
    obtain ⟨t', rfl, h2⟩ := (ih2.1 pb (pre ++ t) st hb (by simp [hd])).ok
    refine .mk (t := t ++ t') (by simp) ?_
    rw [he, conL_thn, h1]; simp only [blen_append] at h2
    simp [caseC, h2, Nat.add_assoc]
  | @pair_no1 a b x _ ih1 =>
    refine ⟨fun p pre st hp hd => ?_, trivial⟩
    obtain ⟨pa, pb, ha, he, hg⟩ : ∃ pa pb, AsVal X G pa a ∧
        (∀ o, conL G H pol d p st o = conL G H pol d (.thn pa pb) st o) ∧ Guarded p := by
      cases hp with
      | thn ha hb => exact ⟨_, _, ha, fun _ => rfl, trivial⟩
      | sepOnce ha hs hb => exact ⟨_, _, ha, fun _ => conL_sepOnce_eq .., trivial⟩
    obtain ⟨e, o', h1, _⟩ := (ih1.1 pa pre st ha hd).no
    refine .eps (e := e) ?_ fun T => guarded_tail hg
    rw [he, conL_thn, h1]; rfl
  | @pair_no2 a b x y v _ _ ih1 ih2 =>
    refine ⟨fun p pre st hp hd => ?_, trivial⟩
    obtain ⟨pa, pb, ha, hb, he, hg⟩ : ∃ pa pb, AsVal X G pa a ∧ AsVal X G pb b ∧
        (∀ o, conL G H pol d p st o = conL G H pol d (.thn pa pb) st o) ∧ Guarded p := by
      cases hp with
      | thn ha hb => exact ⟨_, _, ha, hb, fun _ => rfl, trivial⟩
      | sepOnce ha hs hb => exact ⟨_, _, ha, .pre hs hb, fun _ => conL_sepOnce_eq .., trivial⟩
    obtain ⟨t, rfl, h1⟩ := (ih1.1 pa pre st ha hd).ok
    obtain ⟨e, o', h2, _⟩ := (ih2.1 pb (pre ++ t) st hb (by simp [hd])).no
    refine .eps (e := e) ?_ fun T => guarded_tail hg
    rw [he, conL_thn, h1]; simp only [blen_append] at h2
    simp [caseC, h2]
  | @after_ok e a x y r hf _ ih =>
    refine ⟨fun p pre st hp hd => ?_, trivial⟩
    obtain ⟨s, pa, hs, ha, he, hg⟩ : ∃ s pa, X.delim s e ∧ AsVal X G pa a ∧
        (∀ o, conL G H pol d p st o = conL G H pol d (.pre s pa) st o) ∧ Guarded p := by
      cases hp with
      | pre hs ha => exact ⟨_, _, hs, ha, fun _ => rfl, trivial⟩
      | enclose hs ha ht => exact ⟨_, _, hs, .suf ha ht, fun _ => conL_enclose_eq .., trivial⟩
    obtain ⟨t, rfl⟩ := ford_suffix hf
    obtain ⟨sp, h1⟩ := dok hs hd hf
    have h2 := ih.1 pa (pre ++ t) st ha (by simp [hd])
    cases r with
    | some vy =>
      obtain ⟨t', hx, h3⟩ := h2.ok
      refine .mk (t := t ++ t') (by simp [hx]) ?_
      rw [he, conL_pre, h1]; simp only [blen_append] at h3
      simp [caseC, caseM, h3, Nat.add_assoc]
    | none =>
      obtain ⟨er, o', h2, _⟩ := h2.no
      refine .eps (e := er) ?_ fun T => guarded_tail hg
      rw [he, conL_pre, h1]; simp only [blen_append] at h2
      simp [caseC, caseM, h2]
  | @after_no e a x hf =>
    refine ⟨fun p pre st hp hd => ?_, trivial⟩
    obtain ⟨s, pa, hs, he, hg⟩ : ∃ s pa, X.delim s e ∧
        (∀ o, conL G H pol d p st o = conL G H pol d (.pre s pa) st o) ∧ Guarded p := by
      cases hp with
      | pre hs ha => exact ⟨_, _, hs, fun _ => rfl, trivial⟩
      | enclose hs ha ht => exact ⟨_, _, hs, fun _ => conL_enclose_eq .., trivial⟩
    obtain ⟨er, w, z, _, _, h1⟩ := dno hs hd hf
    refine .eps (e := er) ?_ fun T => guarded_tail hg
    rw [he, conL_pre, h1]; rfl
  | @before_ok a e x y z v _ hf ih =>
    refine ⟨fun p pre st hp hd => ?_, trivial⟩
    cases hp with
    | suf ha hs =>
      obtain ⟨t, rfl, h1⟩ := (ih.1 _ pre st ha hd).ok
      obtain ⟨t', rfl⟩ := ford_suffix hf
      obtain ⟨sp, h2⟩ := dok (pre := pre ++ t) hs (by simp [hd]) hf
      refine .mk (t := t ++ t') (by simp) ?_
      rw [conL_suf, h1]; simp only [blen_append] at h2
      simp [caseC, caseM, h2, Nat.add_assoc]
  | before_no1 _ ih =>
    refine ⟨fun p pre st hp hd => ?_, trivial⟩
    cases hp with
    | suf ha hs =>
      obtain ⟨e, o', h1, _⟩ := (ih.1 _ pre st ha hd).no
      refine .eps (e := e) ?_ fun T => guarded_tail (p := .suf ..) trivial
      rw [conL_suf, h1]; rfl
  | @before_no2 a e x y v _ hf ih =>
    refine ⟨fun p pre st hp hd => ?_, trivial⟩
    cases hp with
    | suf ha hs =>
      obtain ⟨t, rfl, h1⟩ := (ih.1 _ pre st ha hd).ok
      obtain ⟨er, w, z, _, _, h2⟩ := dno (pre := pre ++ t) hs (by simp [hd]) hf
      refine .eps (e := er) ?_ fun T => guarded_tail (p := .suf ..) trivial
      rw [conL_suf, h1]; simp only [blen_append] at h2
      simp [caseC, caseM, h2]
  | @cond_yes a t b x y z u v w _ hf _ ih1 ih2 =>
    refine ⟨fun p pre st hp hd => ?_, trivial⟩
    cases hp with
    | ifThen ha hs hb =>
      obtain ⟨t1, rfl, h1⟩ := (ih1.1 _ pre st ha hd).ok
      obtain ⟨t2, rfl⟩ := ford_suffix hf
      obtain ⟨sp, h2⟩ := dok (pre := pre ++ t1) hs (by simp [hd]) hf
      obtain ⟨t3, rfl, h3⟩ := (ih2.1 _ (pre ++ t1 ++ t2) st hb (by simp [hd])).ok
      refine .mk (t := t1 ++ t2 ++ t3) (by simp) ?_
      rw [conL_ifThen, h1]; simp only [blen_append, Nat.add_assoc] at h2 h3
      simp [caseC, caseM, h2, h3, Nat.add_assoc]
  | @cond_no a t b x y v _ hf ih1 =>
    refine ⟨fun p pre st hp hd => ?_, trivial⟩
    cases hp with
    | ifThen ha hs hb =>
      obtain ⟨t1, rfl, h1⟩ := (ih1.1 _ pre st ha hd).ok
      obtain ⟨er, w, z, _, _, h2⟩ := dno (pre := pre ++ t1) hs (by simp [hd]) hf
      refine .mk (t := t1) (by simp) ?_
      rw [conL_ifThen, h1]; simp only [blen_append] at h2
      simp [caseC, caseM, h2]
  | cond_fail1 _ ih =>
    refine ⟨fun p pre st hp hd => ?_, trivial⟩
    cases hp with
    | ifThen ha hs hb =>
      obtain ⟨e, o', h1, _⟩ := (ih.1 _ pre st ha hd).no
      refine .eps (e := e) ?_ fun T => guarded_tail (p := .ifThen ..) trivial
      rw [conL_ifThen, h1]; rfl
  | @cond_fail2 a t b x y z v _ hf _ ih1 ih2 =>
    refine ⟨fun p pre st hp hd => ?_, trivial⟩
    cases hp with
    | ifThen ha hs hb =>
      obtain ⟨t1, rfl, h1⟩ := (ih1.1 _ pre st ha hd).ok
      obtain ⟨t2, rfl⟩ := ford_suffix hf
      obtain ⟨sp, h2⟩ := dok (pre := pre ++ t1) hs (by simp [hd]) hf
      obtain ⟨e, o', h3, _⟩ := (ih2.1 _ (pre ++ t1 ++ t2) st hb (by simp [hd])).no
      refine .eps (e := e) ?_ fun T => guarded_tail (p := .ifThen ..) trivial
      rw [conL_ifThen, h1]; simp only [blen_append] at h2 h3
      simp [caseC, caseM, h2, h3]
  | @alt_1 a b x v y _ ih =>
    refine ⟨fun p pre st hp hd => ?_, trivial⟩
    cases hp with
    | or ha hb =>
      obtain ⟨t, rfl, h1⟩ := (ih.1 _ pre st ha hd).ok
      refine .mk (t := t) (by simp) ?_
      rw [conL_or, h1]; rfl
    | choice_cons er ha hb =>
      obtain ⟨t, rfl, h1⟩ := (ih.1 _ pre st ha hd).ok
      refine .mk (t := t) (by simp) ?_
      rw [conL_choice_cons, h1]; rfl
    | @choice_pair er pa E k items Es ha hb =>
      obtain ⟨t, rfl, h1⟩ := (ih.1 (.map pa fun v => .ok (.pair v k)) pre st
        (.map _ (by simp) (by simp) ha) hd).ok
      refine .mk (t := t) (by simp) ?_
      rw [conL_map] at h1
      rw [conL_choice_cons]
      cases hc : conL G H pol d pa st (blen pre) with
      | none => rw [hc] at h1; cases h1
      | some r => rw [hc] at h1; cases r <;> cases h1; rfl
  | @alt_2 a b x r _ _ ih1 ih2 =>
    refine ⟨fun p pre st hp hd => ?_, trivial⟩
    have lift : ∀ pa pb (k : Nat → Nat), (∀ e st1 o1, conL G H pol d pa st (blen pre) = some (.err e st1 o1) →
        conL G H pol d p st (blen pre) = caseC (conL G H pol d pb st1 (blen pre))
          (fun v st2 o2 => some (.ok v st2 o2)) (fun e st2 o2 => some (.err e st2 (k o2)))) →
        AsVal X G pa a → AsVal X G pb b → Guarded p → Got X G H pol R d p st pre x r := by
      intro pa pb k hk ha hb hg
      obtain ⟨e, o', h1, _⟩ := (ih1.1 _ pre st ha hd).no
      have h2 := ih2.1 _ pre st hb hd
      cases r with
      | some vy =>
        obtain ⟨t, hx, h3⟩ := h2.ok
        refine .mk (t := t) hx ?_
        rw [hk _ _ _ h1, h3]; rfl
      | none =>
        obtain ⟨e', o1, h2, _⟩ := h2.no
        refine .guard (e := e') (o' := k o1) ?_ hg
        rw [hk _ _ _ h1, h2]; rfl
    have eta : ∀ r : Option (CRes σ (Val β)), r = caseC r (fun v st2 o2 => some (.ok v st2 o2))
        (fun e st2 o2 => some (.err e st2 o2)) := by
      intro r; cases r with
      | none => rfl
      | some r => cases r <;> rfl
    cases hp with
    | or ha hb =>
      exact lift _ _ (fun _ => blen pre) (fun e st1 o1 h => by rw [conL_or, h]; rfl) ha hb trivial
    | choice_cons er ha hb =>
      exact lift _ _ id (fun e st1 o1 h => by rw [conL_choice_cons, h]; exact eta _) ha hb trivial
    | @choice_pair er pa E k items Es ha hb =>
      refine lift (.map pa fun v => .ok (.pair v k)) _ id (fun e st1 o1 h => ?_)
        (.map _ (by simp) (by simp) ha) hb trivial
      rw [conL_map] at h
      rw [conL_choice_cons]
      cases hc : conL G H pol d pa st (blen pre) with
      | none => rw [hc] at h; cases h
      | some r => rw [hc] at h; cases r <;> cases h; exact eta _
  | @longest_l a b x v y w z _ _ hlen ih1 ih2 =>
    refine ⟨fun p pre st hp hd => ?_, trivial⟩
    cases hp with
    | longest ha hb =>
      obtain ⟨t, rfl, h1⟩ := (ih1.1 _ pre st ha hd).ok
      obtain ⟨t', hx, h2⟩ := (ih2.1 _ pre st hb hd).ok
      refine .mk (t := t) rfl ?_
      have := (suffix_le hx).2 hlen
      rw [conL_longest, h1]
      simp only [caseC, h2]
      rw [if_pos (by omega)]
  | @longest_r a b x v y w z _ _ hlen ih1 ih2 =>
    refine ⟨fun p pre st hp hd => ?_, trivial⟩
    cases hp with
    | longest ha hb =>
      obtain ⟨t, rfl, h1⟩ := (ih1.1 _ pre st ha hd).ok
      obtain ⟨t', hx, h2⟩ := (ih2.1 _ pre st hb hd).ok
      refine .mk (t := t') hx ?_
      have := (suffix_le hx).1
      rw [conL_longest, h1]
      simp only [caseC, h2]
      rw [if_neg (by omega)]
  | @longest_a a b x v y _ _ ih1 ih2 =>
    refine ⟨fun p pre st hp hd => ?_, trivial⟩
    cases hp with
    | longest ha hb =>
      obtain ⟨t, rfl, h1⟩ := (ih1.1 _ pre st ha hd).ok
      obtain ⟨e, o', h2, _⟩ := (ih2.1 _ pre st hb hd).no
      refine .mk (t := t) rfl ?_
      rw [conL_longest, h1]
      simp only [caseC, h2]
  | @longest_b a b x r _ _ ih1 ih2 =>
    refine ⟨fun p pre st hp hd => ?_, trivial⟩
    cases hp with
    | longest ha hb =>
      obtain ⟨e, o', h1, _⟩ := (ih1.1 _ pre st ha hd).no
      have h2 := ih2.1 _ pre st hb hd
      rcases r with _ | ⟨v, y⟩
      · obtain ⟨e', o', h2', _⟩ := h2.no
        refine .guard (e := e') (o' := blen pre) ?_ trivial
        rw [conL_longest, h1]
        simp only [caseC, h2']
      · obtain ⟨t, hx, h2'⟩ := h2.ok
        refine .mk (t := t) hx ?_
        rw [conL_longest, h1]
        simp only [caseC, h2']
  | @ite c a b x r _ ih =>
    refine ⟨fun p pre st hp hd => ?_, trivial⟩
    cases hp with
    | @branch test pa pb A B _ hc ha hb =>
      have hab : AsVal X G (if c x then pa else pb) (if c x then a else b) := by split <;> assumption
      have h1 := ih.1 _ pre st hab hd
      rcases r with _ | ⟨v, y⟩
      · obtain ⟨e', o', h2, _⟩ := h1.no
        refine .guard (e := e') (o' := blen pre) ?_ trivial
        rw [conL_branch, hd, hc pre x, ← hd]
        simp only [caseT, caseC, h2]
      · obtain ⟨t, hx, h2⟩ := h1.ok
        refine .mk (t := t) hx ?_
        rw [conL_branch, hd, hc pre x, ← hd]
        simp only [caseT, caseC, h2]
  | opt_some _ ih =>
    refine ⟨fun p pre st hp hd => ?_, trivial⟩
    cases hp with
    | opt ha =>
      obtain ⟨t, hx, h1⟩ := (ih.1 _ pre st ha hd).ok
      refine .mk (t := t) hx ?_
      rw [conL_opt, h1]; rfl
  | opt_none _ ih =>
    refine ⟨fun p pre st hp hd => ?_, trivial⟩
    cases hp with
    | opt ha =>
      obtain ⟨e, o', h1, _⟩ := (ih.1 _ pre st ha hd).no
      refine .mk (t := []) rfl ?_
      rw [conL_opt, h1]; simp [caseC]
  | map_ok _ hf ih =>
    refine ⟨fun p pre st hp hd => ?_, trivial⟩
    cases hp with
    | map f' hn hi ha =>
      obtain ⟨t, hx, h1⟩ := (ih.1 _ pre st ha hd).ok
      refine .mk (t := t) hx ?_
      rw [conL_map, h1]; simp only [caseC, caseT, (hi _ _).mpr hf]
  | @map_no f a x v y _ hf ih =>
    refine ⟨fun p pre st hp hd => ?_, trivial⟩
    cases hp with
    | @map pa _ F f' hn hi ha =>
      obtain ⟨t, hx, h1⟩ := (ih.1 _ pre st ha hd).ok
      obtain ⟨e, he⟩ : ∃ e, F v = .err e := by
        cases h : F v with
        | panic => exact absurd h (hn v)
        | err e => exact ⟨e, rfl⟩
        | ok w => rw [(hi _ _).mp h] at hf; cases hf
      refine ⟨e, blen pre + blen t, ?_, fun T hT => ?_⟩
      · rw [constructs_iff, conL_map, h1]; simp only [caseC, caseT, he]
      · cases hT with
        | leaf h => exact absurd h id
        | guarded h => exact absurd h id
        | map hf' => exact absurd he (hf' _ _)
        | mapLeaf hl hnp ht =>
          refine ⟨t, y, hx, .alt_1 ?_, rfl⟩
          obtain ⟨r, hr, hr'⟩ := leaf_text hX hH hl hnp ht hd (constructs_iff.mpr h1)
          rcases r with _ | y'
          · obtain ⟨_, _, h⟩ := hr'; cases h
          · obtain ⟨t', v', hx', h⟩ := hr'
            injection h with _ _ h
            rw [hx] at hx'
            obtain ⟨rfl, rfl⟩ := append_len_eq hx' (by omega)
            exact hr
  | @map_fail f a x _ ih =>
    refine ⟨fun p pre st hp hd => ?_, trivial⟩
    cases hp with
    | @map pa _ F f' hn hi ha =>
      obtain ⟨e, o', h1, hT'⟩ := (ih.1 _ pre st ha hd).no
      refine ⟨e, o', ?_, fun T hT => ?_⟩
      · rw [constructs_iff, conL_map, h1]; simp only [caseC]
      · cases hT with
        | leaf h => exact absurd h id
        | guarded h => exact absurd h id
        | map hf' hT => exact hT' _ hT
        | mapLeaf hl hnp ht =>
          obtain ⟨w, z, hx, hf, ho⟩ := hT' _ (.leaf hl)
          refine ⟨w, z, hx, .alt_2 ?_ hf, ho⟩
          obtain ⟨r, hr, hr'⟩ := leaf_text hX hH hl hnp ht hd (constructs_iff.mpr h1)
          rcases r with _ | y'
          · exact hr
          · obtain ⟨t', v', hx', h⟩ := hr'; cases h
  | @bind_ok a k x y z v w _ _ ih1 ih2 =>
    refine ⟨fun p pre st hp hd => ?_, trivial⟩
    cases hp with
    | dthen q k hq ha hk =>
      obtain ⟨t, rfl, h1⟩ := (ih1.1 _ pre st ha hd).ok
      obtain ⟨t', rfl, h2⟩ := (ih2.1 _ (pre ++ t) st (hk v) (by simp [hd])).ok
      refine .mk (t := t ++ t') (by simp) ?_
      rw [conL_dthen, h1]; simp only [blen_append] at h2
      simp [caseC, caseM, hq, h2, Nat.add_assoc]
  | bind_no1 _ ih =>
    refine ⟨fun p pre st hp hd => ?_, trivial⟩
    cases hp with
    | dthen q k hq ha hk =>
      obtain ⟨e, o', h1, _⟩ := (ih.1 _ pre st ha hd).no
      refine .eps (e := e) ?_ fun T hT => by
        cases hT <;> first | rfl | (next h => exact absurd h id)
      rw [conL_dthen, h1]; rfl
  | @bind_no2 a k x y v _ _ ih1 ih2 =>
    refine ⟨fun p pre st hp hd => ?_, trivial⟩
    cases hp with
    | dthen q k hq ha hk =>
      obtain ⟨t, rfl, h1⟩ := (ih1.1 _ pre st ha hd).ok
      obtain ⟨e, o', h2, _⟩ := (ih2.1 _ (pre ++ t) st (hk v) (by simp [hd])).no
      refine .eps (e := e) ?_ fun T hT => by
        cases hT <;> first | rfl | (next h => exact absurd h id)
      rw [conL_dthen, h1]; simp only [blen_append] at h2
      simp [caseC, caseM, hq, h2]
  | @upto_full a T x =>
    refine ⟨fun p pre st hp hd => (nomatch hp), [], x, rfl, by simp, ?_⟩
    intro p pre st more cnt vals fin ha hT hd hm
    refine ⟨[], rfl, ?_⟩
    have : more cnt = false := by
      have := hm 0
      cases h : more cnt
      · rfl
      · simp [h] at this
    rw [conRepL_eq, this]; simp
  | @upto_stop a n T x y hn _ hf ih =>
    refine ⟨fun p pre st hp hd => (nomatch hp), [], y, rfl, by simp, ?_⟩
    intro p pre st more cnt vals fin ha hT hd hm
    have : more cnt = true := by
      refine (hm 0).mpr fun n' h => ?_
      rcases n' with _ | n'
      · exact absurd h hn
      · omega
    obtain ⟨e, o', h1, h2⟩ := (ih.1 _ pre st ha hd).no
    obtain ⟨w, z, hx, hf', ho⟩ := h2 T hT
    cases hf.unique hf'
    refine ⟨w, hx, ?_⟩
    rw [conRepL_eq, this, h1]; simp [caseC, ho]
  | @upto_more a n T x y z v l hn _ _ ih1 ih2 =>
    obtain ⟨vs, y', hl, hle, hloop⟩ := ih2.2
    cases hl
    refine ⟨fun p pre st hp hd => (nomatch hp), v :: vs, z, rfl, fun n' h => ?_, ?_⟩
    · subst h
      have := hle (n' - 1) rfl
      rcases n' with _ | n'
      · exact absurd rfl hn
      · simp at this ⊢; omega
    intro p pre st more cnt vals fin ha hT hd hm
    have : more cnt = true := by
      refine (hm 0).mpr fun n' h => ?_
      rcases n' with _ | n'
      · exact absurd h hn
      · omega
    obtain ⟨t, rfl, h1⟩ := (ih1.1 _ pre st ha hd).ok
    obtain ⟨t', rfl, h2⟩ := hloop p (pre ++ t) st more (cnt + 1) (vals ++ [v]) fin ha hT (by simp [hd]) (by
      intro k
      rw [Nat.add_assoc, hm (1 + k)]
      cases n with
      | none => simp
      | some j =>
        rcases j with _ | j
        · exact absurd rfl hn
        · simp; omega)
    refine ⟨t ++ t', by simp, ?_⟩
    rw [conRepL_eq, this, h1]
    simp only [blen_append] at h2
    simp [caseC, h2, Nat.add_assoc, Nat.add_comm 1]
  | @many_ok a m n T x vs y _ hm ih =>
    refine ⟨fun p pre st hp hd => ?_, trivial⟩
    obtain ⟨vs', y', hl, hle, hloop⟩ := ih.2
    injection hl with hl; injection hl with hl hy
    cases list_inj hl; cases hy
    cases hp with
    | rep r m n ha hT hc =>
      have hL := counts_loop hc
      obtain ⟨t, hx, h⟩ := hloop _ pre st r.more 0 [] (conFinish r.contains .repeat_ (blen pre) Val.list)
        ha hT hd (by simpa using hL.more_iff)
      refine .mk hx ?_
      rw [conL_rep, h]
      simp [conFinish, (hL.ok_iff vs.length).mpr ⟨hm, hle⟩]
    | collect m ha hT =>
      obtain ⟨t, hx, h⟩ := hloop _ pre st (fun _ => true) 0 []
        (conFinish (fun c => decide (c ≥ m)) .collect (blen pre) Val.list) ha hT hd (by simp)
      refine .mk hx ?_
      rw [conL_collect, h]
      simp [conFinish, hm]
  | @many_no a m n T x vs y _ hm ih =>
    refine ⟨fun p pre st hp hd => ?_, trivial⟩
    obtain ⟨vs', y', hl, hle, hloop⟩ := ih.2
    injection hl with hl; injection hl with hl hy
    cases list_inj hl; cases hy
    cases hp with
    | rep r m n ha hT hc =>
      have hL := counts_loop hc
      obtain ⟨t, hx, h⟩ := hloop _ pre st r.more 0 [] (conFinish r.contains .repeat_ (blen pre) Val.list)
        ha hT hd (by simpa using hL.more_iff)
      refine .guard (e := .repeat_) (o' := blen pre) ?_ trivial
      rw [conL_rep, h]
      have : r.contains vs.length = false := by
        cases h : r.contains vs.length
        · rfl
        · have := ((hL.ok_iff vs.length).mp h).1; omega
      simp [conFinish, this]
    | collect m ha hT =>
      obtain ⟨t, hx, h⟩ := hloop _ pre st (fun _ => true) 0 []
        (conFinish (fun c => decide (c ≥ m)) .collect (blen pre) Val.list) ha hT hd (by simp)
      refine .guard (e := .collect) (o' := blen pre) ?_ trivial
      rw [conL_collect, h]
      simp [conFinish]; omega
  | @seps_stop a s keep T Ts x y _ hf ih =>
    refine ⟨fun p pre st hp hd => (nomatch hp), [], y, rfl, ?_⟩
    intro p s' pre st cnt vals fin ha hT hs hTs hd
    obtain ⟨e, o', h1, h2⟩ := (ih.1 _ pre st ha hd).no
    obtain ⟨w, z, hx, hf', ho⟩ := h2 T hT
    cases hf.unique hf'
    refine ⟨w, hx, ?_⟩
    rw [conSepL_eq, h1]; simp [caseC, ho]
  | @seps_last a s keep T Ts x v y z _ hf hfs ih =>
    refine ⟨fun p pre st hp hd => (nomatch hp), if keep then [v] else [], z, ?_, ?_⟩
    · cases keep <;> rfl
    intro p s' pre st cnt vals fin ha hT hs hTs hd
    subst hTs
    obtain ⟨t, rfl, h1⟩ := (ih.1 _ pre st ha hd).ok
    obtain ⟨er, w, z', hx, hz, h2⟩ := dno (pre := pre ++ t) hs (by simp [hd]) hf
    cases hz.unique hfs
    refine ⟨t ++ w, by simp [hx], ?_⟩
    simp only [blen_append] at h2
    rw [conSepL_eq, h1]
    cases keep <;> simp [caseC, caseM, h2, Nat.add_assoc]
  | @seps_more a s keep T Ts x v y z l u _ hf _ ih1 ih2 =>
    obtain ⟨vs, y', hl, hloop⟩ := ih2.2
    cases hl
    refine ⟨fun p pre st hp hd => (nomatch hp), v :: vs, u, rfl, ?_⟩
    intro p s' pre st cnt vals fin ha hT hs hTs hd
    obtain ⟨t, rfl, h1⟩ := (ih1.1 _ pre st ha hd).ok
    obtain ⟨t2, rfl⟩ := ford_suffix hf
    obtain ⟨sp, h2⟩ := dok (pre := pre ++ t) hs (by simp [hd]) hf
    obtain ⟨t3, rfl, h3⟩ := hloop p s' (pre ++ t ++ t2) st (cnt + 1) (vals ++ [v]) fin ha hT hs hTs (by simp [hd])
    refine ⟨t ++ t2 ++ t3, by simp, ?_⟩
    simp only [blen_append, Nat.add_assoc] at h2 h3
    rw [conSepL_eq, h1]
    simp [caseC, caseM, h2, h3, Nat.add_assoc, Nat.add_comm 1]
  | @list_ok a s keep m T Ts x vs y _ hm ih =>
    refine ⟨fun p pre st hp hd => ?_, trivial⟩
    obtain ⟨vs', y', hl, hloop⟩ := ih.2
    injection hl with hl; injection hl with hl hy
    cases list_inj hl; cases hy
    cases hp with
    | sep keep m ha hT hs =>
      obtain ⟨t, hx, h⟩ := hloop _ _ pre st 0 []
        (conFinish (fun c => decide (c ≥ m)) .separate (blen pre) Val.list) ha hT hs rfl hd
      refine .mk hx ?_
      rw [conL_sep, h]
      simp [conFinish, hm]
  | @list_no a s keep m T Ts x vs y _ hm ih =>
    refine ⟨fun p pre st hp hd => ?_, trivial⟩
    obtain ⟨vs', y', hl, hloop⟩ := ih.2
    injection hl with hl; injection hl with hl hy
    cases list_inj hl; cases hy
    cases hp with
    | sep keep m ha hT hs =>
      obtain ⟨t, hx, h⟩ := hloop _ _ pre st 0 []
        (conFinish (fun c => decide (c ≥ m)) .separate (blen pre) Val.list) ha hT hs rfl hd
      refine .guard (e := .separate) (o' := blen pre) ?_ trivial
      rw [conL_sep, h]
      simp [conFinish]; omega

/-! ## From runs to derivations -/

section Halts

variable {d : List ι} {n : Nat}

/-- What is known of the parts when the whole has been evaluated. -/
def Known (X : Reading ι β) (G : Rules ι β) (H : Handler ι β σ) (pol : Option (Pat ι β)) (R : Nat → Peg ι)
    (V : Nat → VPeg ι β) (g : List ι → List ι → β) (d : List ι) (n : Nat) : Prop :=
  ∀ (p : Pat ι β) E, AsVal X G p E → ∀ (st : σ) (pre x : List ι) o res, d = pre ++ x → o = blen pre →
    con G H n pol d p st o = some res →
    (∃ v t y, x = t ++ y ∧ Yields R V g E x (some (v, y)) ∧ res = .ok v st (blen pre + blen t)) ∨
    (∃ e o', Yields R V g E x none ∧ res = .err e st o' ∧ ∀ T, Tail X G p T → ∃ z, Ford R T x (some z))

theorem known_of (hX : ReadOk X G R pol) (hV : RulesAsVal X G V) (hH : Handles H d g)
    (h : ∀ (p : Pat ι β) E, AsVal X G p E → ∀ (st : σ) (pre x : List ι) res, d = pre ++ x →
      con G H n pol d p st (blen pre) = some res → ∃ r, Yields R V g E x r) :
    Known X G H pol R V g d n := by
  rintro p E hp st pre x o res hd rfl hc
  obtain ⟨r, hr⟩ := h p E hp st pre x res hd hc
  have hg := (complete hX hV hH hr).1 p pre st hp hd
  rcases r with _ | ⟨v, y⟩
  · obtain ⟨e, o', h1, h2⟩ := hg
    refine .inr ⟨e, o', hr, Constructs.unique ⟨n, hc⟩ h1, fun T hT => ?_⟩
    obtain ⟨w, z, _, hz, _⟩ := h2 T hT
    exact ⟨z, hz⟩
  · obtain ⟨t, hx, h1⟩ := hg
    exact .inl ⟨v, t, y, hx, hr, Constructs.unique ⟨n, hc⟩ h1⟩

theorem known_delim (hX : ReadOk X G R pol) {s : Pat ι β} {e : Peg ι} (hs : X.delim s e)
    {pre x : List ι} {o res} (hd : d = pre ++ x) (ho : o = blen pre) (h : tryMat G n pol d s o = some res) :
    (∃ sp t y, x = t ++ y ∧ Ford R e x (some y) ∧ res = .ok sp (blen pre + blen t)) ∨
    (∃ er o' z, Ford R e x none ∧ res = .err er o' ∧ Ford R (.opt X.skip) x (some z)) := by
  subst ho
  have hr : Runs G pol d s (blen pre) res := ⟨n, h⟩
  obtain ⟨r, hf⟩ := hX.delim_halt (pre := pre) hs (hd ▸ hr)
  rcases r with _ | y
  · obtain ⟨er, w, z, hx, hz, h1⟩ := hX.delim_no (pre := pre) hs hf
    exact .inr ⟨er, _, z, hf, hr.unique (hd ▸ h1), hz⟩
  · obtain ⟨t, rfl⟩ := ford_suffix hf
    obtain ⟨sp, h1⟩ := hX.delim_ok (pre := pre) hs hf
    exact .inl ⟨sp, t, y, rfl, hf, hr.unique (hd ▸ h1)⟩

theorem halts_choice (hk : Known X G H pol R V g d n) (er : Error) (items : List (Pat ι β × Option (Val β)))
    {E : VPeg ι β} (hp : AsVal X G (.choice er items) E) (st : σ) (pre x : List ι) (res) (hd : d = pre ++ x)
    (h : conChoice (con G H n pol d) er (blen pre) items st (blen pre) = some res) :
    ∃ r, Yields R V g E x r := by
  induction items generalizing E st with
  | nil =>
    cases hp with
    | leaf hl => exact absurd hl id
    | choice_nil => exact ⟨none, .fail⟩
  | cons it items ih =>
    rw [conChoice, caseC_some] at h
    cases hp with
    | leaf hl => exact absurd hl id
    | choice_cons _ ha hb =>
      rcases h with ⟨h1, _⟩ | ⟨v, st1, o1, h1, _⟩ | ⟨e, st1, o1, h1, h2⟩
      all_goals rcases hk _ _ ha st pre x _ _ hd rfl h1 with ⟨v', t, y, rfl, hy, h3⟩ | ⟨e', o', hy, h3, _⟩ <;> cases h3
      · exact ⟨_, .alt_1 hy⟩
      · obtain ⟨r, hr⟩ := ih hb st h2
        exact ⟨r, .alt_2 hy hr⟩
    | choice_pair _ ha hb =>
      rcases h with ⟨h1, _⟩ | ⟨v, st1, o1, h1, _⟩ | ⟨e, st1, o1, h1, h2⟩
      all_goals rcases hk _ _ ha st pre x _ _ hd rfl h1 with ⟨v', t, y, rfl, hy, h3⟩ | ⟨e', o', hy, h3, _⟩ <;> cases h3
      · exact ⟨_, .alt_1 (.map_ok hy rfl)⟩
      · obtain ⟨r, hr⟩ := ih hb st h2
        exact ⟨r, .alt_2 (.map_fail hy) hr⟩

theorem halts_rep (hk : Known X G H pol R V g d n) {p : Pat ι β} {E : VPeg ι β} {T : Peg ι}
    (hp : AsVal X G p E) (hT : Tail X G p T) {more : Nat → Bool} {fin} (fuel : Nat) :
    ∀ (N : Option Nat) cnt vals (st : σ) (pre x : List ι) res, d = pre ++ x →
      (∀ k, more (cnt + k) = true ↔ ∀ n', N = some n' → k < n') →
      conRep (con G H n pol d) p more (fun _ => true) fin fuel cnt vals st (blen pre) = some res →
      ∃ vs y, Yields R V g (.upto E N T) x (some (Val.list vs, y)) := by
  induction fuel with
  | zero => intro N cnt vals st pre x res _ _ h; cases h
  | succ fuel ih =>
    intro N cnt vals st pre x res hd hm h
    rw [conRep] at h
    have h0 := hm 0
    by_cases hN : N = some 0
    · subst hN; exact ⟨[], x, .upto_full⟩
    have : more cnt = true := h0.mpr fun n' h' => by
      rcases n' with _ | n'
      · exact absurd h' hN
      · omega
    rw [this, if_pos rfl, caseC_some] at h
    rcases h with ⟨h1, _⟩ | ⟨v, st1, o1, h1, h2⟩ | ⟨e, st1, o1, h1, h2⟩
    all_goals rcases hk _ _ hp st pre x _ _ hd rfl h1 with ⟨v', t, y, rfl, hy, h3⟩ | ⟨e', o', hy, h3, hz⟩ <;> cases h3
    · obtain ⟨vs, z, hr⟩ := ih (N.map (· - 1)) (cnt + 1) _ st (pre ++ t) y res (by simp [hd]) (by
        intro k
        rw [Nat.add_assoc, hm (1 + k)]
        cases N with
        | none => simp
        | some j =>
          rcases j with _ | j
          · exact absurd rfl hN
          · simp; omega) (by rw [blen_append]; simpa using h2)
      exact ⟨v :: vs, z, .upto_more hN hy hr⟩
    · obtain ⟨z, hz⟩ := hz T hT
      exact ⟨[], z, .upto_stop hN hy hz⟩

theorem halts_sep (hX : ReadOk X G R pol) (hk : Known X G H pol R V g d n) {p s : Pat ι β} {E : VPeg ι β}
    {e T : Peg ι} (hp : AsVal X G p E) (hT : Tail X G p T) (hs : X.delim s e) {keep : Bool} {fin} (fuel : Nat) :
    ∀ cnt vals (st : σ) (pre x : List ι) res, d = pre ++ x →
      conSep (con G H n pol d) (tryMat G n pol d s) p keep (fun _ => true) (fun _ => true) fin fuel cnt vals st
        (blen pre) = some res →
      ∃ vs y, Yields R V g (.seps E e keep T (.opt X.skip)) x (some (Val.list vs, y)) := by
  induction fuel with
  | zero => intro cnt vals st pre x res _ h; cases h
  | succ fuel ih =>
    intro cnt vals st pre x res hd h
    rw [conSep, if_pos rfl, caseC_some] at h
    rcases h with ⟨h1, _⟩ | ⟨v, st1, o1, h1, h2⟩ | ⟨e, st1, o1, h1, h2⟩
    all_goals rcases hk _ _ hp st pre x _ _ hd rfl h1 with ⟨v', t, y, rfl, hy, h3⟩ | ⟨e', o', hy, h3, hz⟩ <;> cases h3
    · rw [caseM_some] at h2
      rcases h2 with ⟨h2, _⟩ | ⟨sp, o2, h2, h3⟩ | ⟨er, o2, h2, h3⟩
      all_goals
        rcases known_delim hX hs (pre := pre ++ t) (x := y) (by simp [hd]) (by simp only [blen_append]) h2 with
          ⟨_, t2, y2, rfl, hf, h4⟩ | ⟨_, _, z, hf, h4, hz⟩ <;> cases h4
      · obtain ⟨vs, z, hr⟩ := ih (cnt + 1) _ st (pre ++ t ++ t2) y2 res (by simp [hd])
          (by rw [blen_append]; simpa using h3)
        exact ⟨v :: vs, z, .seps_more hy hf hr⟩
      · refine ⟨if keep then [v] else [], z, ?_⟩
        have := Yields.seps_last (keep := keep) (T := T) hy hf hz
        cases keep <;> exact this
    · obtain ⟨z, hz⟩ := hz T hT
      exact ⟨[], z, .seps_stop hy hz⟩

theorem halts (hX : ReadOk X G R pol) (hV : RulesAsVal X G V) (hH : Handles H d g) (n : Nat) :
    ∀ (p : Pat ι β) E, AsVal X G p E → ∀ (st : σ) (pre x : List ι) res, d = pre ++ x →
      con G H n pol d p st (blen pre) = some res → ∃ r, Yields R V g E x r := by
  induction n with
  | zero => intro p E _ st pre x res _ h; cases h
  | succ n ih =>
    have hk := known_of hX hV hH ih
    intro p E hp st pre x res hd h
    have text : ∀ q e, X.text q e → (∃ m rr, tryMat G m pol d q (blen pre) = some rr) →
        ∃ r, Yields R V g (.text X.skip e) x r := by
      rintro q e ht ⟨m, rr, hm⟩
      obtain ⟨r, hr⟩ := hX.text_halt (pre := pre) (x := x) (res := rr) ht (hd ▸ ⟨m, hm⟩)
      rcases r with _ | y
      · exact ⟨none, .text_no hr⟩
      · cases hr with
        | seq_ok hw hf =>
          obtain ⟨t, rfl⟩ := ford_suffix hf
          exact ⟨_, .text_ok hw hf⟩
    have inv : ∀ {r : Option (Res Span)} {res}, invokeK H d st r = some res → ∃ rr, r = some rr := by
      intro r res h
      cases r with
      | none => cases h
      | some rr => exact ⟨rr, rfl⟩
    rw [con] at h
    cases hp with
    | @leaf _ e hl hn ht =>
      have h' : invokeK H d st (tryMat G (n + 1) pol d p (blen pre)) = some res := by
        cases p <;> first | exact h | exact absurd hl id | exact absurd rfl (hn _)
      obtain ⟨rr, hr⟩ := inv h'
      exact text _ _ ht ⟨_, rr, hr⟩
    | pat ht =>
      obtain ⟨rr, hr⟩ := inv h
      exact text _ _ ht ⟨_, rr, hr⟩
    | cell i =>
      rcases hV i with ⟨q, hq, ha⟩ | ⟨hq, hn⟩
      · simp only [conStep, hq] at h
        obtain ⟨r, hr⟩ := ih _ _ ha st pre x res hd h
        exact ⟨r, .nt hr⟩
      · exact ⟨none, .nt (hn ▸ .fail)⟩
    | thn ha hb =>
      simp only [conStep] at h
      rcases caseC_some.mp h with ⟨h1, _⟩ | ⟨v, st1, o1, h1, h2⟩ | ⟨e, st1, o1, h1, h2⟩
      all_goals rcases hk _ _ ha st pre x _ _ hd rfl h1 with ⟨v', t, y, rfl, hy, h3⟩ | ⟨e', o', hy, h3, hz⟩ <;> cases h3
      · rcases caseC_some.mp h2 with ⟨h2, _⟩ | ⟨_, _, _, h2, _⟩ | ⟨_, _, _, h2, _⟩
        all_goals rcases hk _ _ hb st (pre ++ t) y _ _ (by simp [hd]) (by simp only [blen_append]) h2 with
          ⟨v', t, y, rfl, hy', h3⟩ | ⟨e', o', hy', h3, hz⟩ <;> cases h3
        · exact ⟨_, .pair_ok hy hy'⟩
        · exact ⟨_, .pair_no2 hy hy'⟩
      · exact ⟨_, .pair_no1 hy⟩
    | pre hs ha =>
      simp only [conStep] at h
      rcases caseM_some.mp h with ⟨h1, _⟩ | ⟨v, o1, h1, h2⟩ | ⟨e, o1, h1, h2⟩
      all_goals rcases known_delim hX hs hd rfl h1 with ⟨_, t, y, rfl, hf, h3⟩ | ⟨e', o', z, hf, h3, hz⟩ <;> cases h3
      · rcases caseC_some.mp h2 with ⟨h2, _⟩ | ⟨_, _, _, h2, _⟩ | ⟨_, _, _, h2, _⟩
        all_goals rcases hk _ _ ha st (pre ++ t) y _ _ (by simp [hd]) (by simp only [blen_append]) h2 with
          ⟨v', t, y, rfl, hy', h3⟩ | ⟨e', o', hy', h3, hz⟩ <;> cases h3
        · exact ⟨_, .after_ok hf hy'⟩
        · exact ⟨_, .after_ok hf hy'⟩
      · exact ⟨_, .after_no hf⟩
    | suf ha hs =>
      simp only [conStep] at h
      rcases caseC_some.mp h with ⟨h1, _⟩ | ⟨v, st1, o1, h1, h2⟩ | ⟨e, st1, o1, h1, h2⟩
      all_goals rcases hk _ _ ha st pre x _ _ hd rfl h1 with ⟨v', t, y, rfl, hy, h3⟩ | ⟨e', o', hy, h3, hz⟩ <;> cases h3
      · rcases caseM_some.mp h2 with ⟨h2, _⟩ | ⟨_, _, h2, _⟩ | ⟨_, _, h2, _⟩
        all_goals rcases known_delim hX hs (pre := pre ++ t) (x := y) (by simp [hd]) (by simp only [blen_append]) h2 with
          ⟨_, t, y, rfl, hf, h3⟩ | ⟨e', o', z, hf, h3, hz⟩ <;> cases h3
        · exact ⟨_, .before_ok hy hf⟩
        · exact ⟨_, .before_no2 hy hf⟩
      · exact ⟨_, .before_no1 hy⟩
    | enclose hs ha ht =>
      simp only [conStep] at h
      rcases caseM_some.mp h with ⟨h1, _⟩ | ⟨v, o1, h1, h2⟩ | ⟨e, o1, h1, h2⟩
      all_goals rcases known_delim hX hs hd rfl h1 with ⟨_, t, y, rfl, hf, h3⟩ | ⟨e', o', z, hf, h3, hz⟩ <;> cases h3
      · rcases caseC_some.mp h2 with ⟨h2, _⟩ | ⟨_, _, _, h2, h4⟩ | ⟨_, _, _, h2, _⟩
        all_goals rcases hk _ _ ha st (pre ++ t) y _ _ (by simp [hd]) (by simp only [blen_append]) h2 with
          ⟨v', t2, y, rfl, hy', h3⟩ | ⟨e', o', hy', h3, hz⟩ <;> cases h3
        · rcases caseM_some.mp h4 with ⟨h2, _⟩ | ⟨_, _, h2, _⟩ | ⟨_, _, h2, _⟩
          all_goals rcases known_delim hX ht (pre := pre ++ t ++ t2) (x := y) (by simp [hd]) (by simp only [blen_append]) h2 with
            ⟨_, t, y, rfl, hf', h3⟩ | ⟨e', o', z, hf', h3, hz⟩ <;> cases h3
          · exact ⟨_, .after_ok hf (.before_ok hy' hf')⟩
          · exact ⟨_, .after_ok hf (.before_no2 hy' hf')⟩
        · exact ⟨_, .after_ok hf (.before_no1 hy')⟩
      · exact ⟨_, .after_no hf⟩
    | sepOnce ha hs hb =>
      simp only [conStep] at h
      rcases caseC_some.mp h with ⟨h1, _⟩ | ⟨v, st1, o1, h1, h2⟩ | ⟨e, st1, o1, h1, h2⟩
      all_goals rcases hk _ _ ha st pre x _ _ hd rfl h1 with ⟨v', t, y, rfl, hy, h3⟩ | ⟨e', o', hy, h3, hz⟩ <;> cases h3
      · rcases caseM_some.mp h2 with ⟨h2, _⟩ | ⟨_, _, h2, h4⟩ | ⟨_, _, h2, _⟩
        all_goals rcases known_delim hX hs (pre := pre ++ t) (x := y) (by simp [hd]) (by simp only [blen_append]) h2 with
          ⟨_, t2, y, rfl, hf, h3⟩ | ⟨e', o', z, hf, h3, hz⟩ <;> cases h3
        · rcases caseC_some.mp h4 with ⟨h2, _⟩ | ⟨_, _, _, h2, _⟩ | ⟨_, _, _, h2, _⟩
          all_goals rcases hk _ _ hb st (pre ++ t ++ t2) y _ _ (by simp [hd]) (by simp only [blen_append]) h2 with
            ⟨v', t, y, rfl, hy', h3⟩ | ⟨e', o', hy', h3, hz⟩ <;> cases h3
          · exact ⟨_, .pair_ok hy (.after_ok hf hy')⟩
          · exact ⟨_, .pair_no2 hy (.after_ok hf hy')⟩
        · exact ⟨_, .pair_no2 hy (.after_no hf)⟩
      · exact ⟨_, .pair_no1 hy⟩
    | ifThen ha hs hb =>
      simp only [conStep] at h
      rcases caseC_some.mp h with ⟨h1, _⟩ | ⟨v, st1, o1, h1, h2⟩ | ⟨e, st1, o1, h1, h2⟩
      all_goals rcases hk _ _ ha st pre x _ _ hd rfl h1 with ⟨v', t, y, rfl, hy, h3⟩ | ⟨e', o', hy, h3, hz⟩ <;> cases h3
      · rcases caseM_some.mp h2 with ⟨h2, _⟩ | ⟨_, _, h2, h4⟩ | ⟨_, _, h2, _⟩
        all_goals rcases known_delim hX hs (pre := pre ++ t) (x := y) (by simp [hd]) (by simp only [blen_append]) h2 with
          ⟨_, t2, y, rfl, hf, h3⟩ | ⟨e', o', z, hf, h3, hz⟩ <;> cases h3
        · rcases caseC_some.mp h4 with ⟨h2, _⟩ | ⟨_, _, _, h2, _⟩ | ⟨_, _, _, h2, _⟩
          all_goals rcases hk _ _ hb st (pre ++ t ++ t2) y _ _ (by simp [hd]) (by simp only [blen_append]) h2 with
            ⟨v', t, y, rfl, hy', h3⟩ | ⟨e', o', hy', h3, hz⟩ <;> cases h3
          · exact ⟨_, .cond_yes hy hf hy'⟩
          · exact ⟨_, .cond_fail2 hy hf hy'⟩
        · exact ⟨_, .cond_no hy hf⟩
      · exact ⟨_, .cond_fail1 hy⟩
    | or ha hb =>
      simp only [conStep] at h
      rcases caseC_some.mp h with ⟨h1, _⟩ | ⟨v, st1, o1, h1, h2⟩ | ⟨e, st1, o1, h1, h2⟩
      all_goals rcases hk _ _ ha st pre x _ _ hd rfl h1 with ⟨v', t, y, rfl, hy, h3⟩ | ⟨e', o', hy, h3, hz⟩ <;> cases h3
      · exact ⟨_, .alt_1 hy⟩
      · obtain ⟨rr, h2⟩ : ∃ rr, con G H n pol d _ st (blen pre) = some rr := by
          rcases caseC_some.mp h2 with ⟨h2, _⟩ | ⟨_, _, _, h2, _⟩ | ⟨_, _, _, h2, _⟩ <;> exact ⟨_, h2⟩
        obtain ⟨r, hr⟩ := ih _ _ hb st pre x _ hd h2
        exact ⟨r, .alt_2 hy hr⟩
    | longest ha hb =>
      simp only [conStep] at h
      rcases caseC_some.mp h with ⟨h1, _⟩ | ⟨v, st1, o1, h1, h2⟩ | ⟨e, st1, o1, h1, h2⟩
      all_goals rcases hk _ _ ha st pre x _ _ hd rfl h1 with ⟨v', t, y, rfl, hy, h3⟩ | ⟨e', o', hy, h3, hz⟩ <;> cases h3
      · obtain ⟨rr, h2⟩ : ∃ rr, con G H n pol d _ st (blen pre) = some rr := by
          rcases caseC_some.mp h2 with ⟨h2, _⟩ | ⟨_, _, _, h2, _⟩ | ⟨_, _, _, h2, _⟩ <;> exact ⟨_, h2⟩
        obtain ⟨r, hr⟩ := ih _ _ hb st pre _ _ hd h2
        rcases r with _ | ⟨w, z⟩
        · exact ⟨_, .longest_a hy hr⟩
        · rcases Nat.lt_or_ge z.length y.length with hl | hl
          · exact ⟨_, .longest_r hy hr hl⟩
          · exact ⟨_, .longest_l hy hr hl⟩
      · obtain ⟨rr, h2⟩ : ∃ rr, con G H n pol d _ st (blen pre) = some rr := by
          rcases caseC_some.mp h2 with ⟨h2, _⟩ | ⟨_, _, _, h2, _⟩ | ⟨_, _, _, h2, _⟩ <;> exact ⟨_, h2⟩
        obtain ⟨r, hr⟩ := ih _ _ hb st pre x _ hd h2
        exact ⟨r, .longest_b hy hr⟩
    | @branch test pa pb A B c hc ha hb =>
      simp only [conStep] at h
      rw [show test d (blen pre) = .ok (c x) from hd ▸ hc pre x] at h
      simp only [caseT] at h
      have hab : AsVal X G (if c x then pa else pb) (if c x then A else B) := by split <;> assumption
      obtain ⟨rr, h2⟩ : ∃ rr, con G H n pol d (if c x then pa else pb) st (blen pre) = some rr := by
        rcases caseC_some.mp h with ⟨h2, _⟩ | ⟨_, _, _, h2, _⟩ | ⟨_, _, _, h2, _⟩ <;> exact ⟨_, h2⟩
      obtain ⟨r, hr⟩ := ih _ _ hab st pre x _ hd h2
      exact ⟨r, .ite hr⟩
    | opt ha =>
      simp only [conStep] at h
      rcases caseC_some.mp h with ⟨h1, _⟩ | ⟨v, st1, o1, h1, h2⟩ | ⟨e, st1, o1, h1, h2⟩
      all_goals rcases hk _ _ ha st pre x _ _ hd rfl h1 with ⟨v', t, y, rfl, hy, h3⟩ | ⟨e', o', hy, h3, hz⟩ <;> cases h3
      · exact ⟨_, .opt_some hy⟩
      · exact ⟨_, .opt_none hy⟩
    | choice_nil er => exact ⟨none, .fail⟩
    | choice_cons er ha hb => exact halts_choice hk er _ (.choice_cons er ha hb) st pre x res hd h
    | choice_pair er ha hb => exact halts_choice hk er _ (.choice_pair er ha hb) st pre x res hd h
    | map f' hn hi ha =>
      simp only [conStep] at h
      rcases caseC_some.mp h with ⟨h1, _⟩ | ⟨v, st1, o1, h1, h2⟩ | ⟨e, st1, o1, h1, h2⟩
      all_goals rcases hk _ _ ha st pre x _ _ hd rfl h1 with ⟨v', t, y, rfl, hy, h3⟩ | ⟨e', o', hy, h3, hz⟩ <;> cases h3
      · cases hf : f' v with
        | none => exact ⟨_, .map_no hy hf⟩
        | some w => exact ⟨_, .map_ok hy hf⟩
      · exact ⟨_, .map_fail hy⟩
    | dthen q k hq ha hb =>
      simp only [conStep] at h
      rcases caseC_some.mp h with ⟨h1, _⟩ | ⟨v, st1, o1, h1, h2⟩ | ⟨e, st1, o1, h1, h2⟩
      all_goals rcases hk _ _ ha st pre x _ _ hd rfl h1 with ⟨v', t, y, rfl, hy, h3⟩ | ⟨e', o', hy, h3, hz⟩ <;> cases h3
      · rw [hq] at h2
        simp only [caseM] at h2
        rcases caseC_some.mp h2 with ⟨h2, _⟩ | ⟨_, _, _, h2, _⟩ | ⟨_, _, _, h2, _⟩
        all_goals rcases hk _ _ (hb v) st (pre ++ t) y _ _ (by simp [hd]) (by simp only [blen_append]) h2 with
          ⟨v', t, y, rfl, hy', h3⟩ | ⟨e', o', hy', h3, hz⟩ <;> cases h3
        · exact ⟨_, .bind_ok hy hy'⟩
        · exact ⟨_, .bind_no2 hy hy'⟩
      · exact ⟨_, .bind_no1 hy⟩
    | rep r m N ha hT hc =>
      obtain ⟨vs, y, hy⟩ := halts_rep hk ha hT n N 0 [] st pre x res hd
        (by simpa using (counts_loop hc).more_iff) h
      rcases Nat.lt_or_ge vs.length m with hl | hl
      · exact ⟨_, .many_no hy hl⟩
      · exact ⟨_, .many_ok hy hl⟩
    | collect m ha hT =>
      obtain ⟨vs, y, hy⟩ := halts_rep hk ha hT n none 0 [] st pre x res hd (by simp) h
      rcases Nat.lt_or_ge vs.length m with hl | hl
      · exact ⟨_, .many_no hy hl⟩
      · exact ⟨_, .many_ok hy hl⟩
    | sep keep m ha hT hs =>
      obtain ⟨vs, y, hy⟩ := halts_sep hX hk ha hT hs n 0 [] st pre x res hd h
      rcases Nat.lt_or_ge vs.length m with hl | hl
      · exact ⟨_, .list_no hy hl⟩
      · exact ⟨_, .list_ok hy hl⟩

end Halts

end Attr

end Neure
