import Verif.Linear
/-!
# Where one item of lookahead decides: the bound

A potential: every item consumed pays `A`, a success that consumed leaves `M` over.
-/

namespace Neure

set_option linter.unusedSectionVars false
set_option linter.unusedSimpArgs false

namespace Plan
variable {ι : Type}

/-- The calls before anything is consumed, handles counting one. -/
def zs : Plan ι → Nat
  | .eps => 0
  | .fail | .leaf _ | .nt _ _ => 1
  | .part k _ _ => k
  | .call a | .skip a => a.zs + 1
  | .may a | .rep a _ _ | .list a _ _ _ => a.zs
  | .seq a b | .alt a b | .cond a b => a.zs + b.zs

/-- The calls in one round of every loop, handles counting one. -/
def vs : Plan ι → Nat
  | .eps => 0
  | .fail | .leaf _ | .nt _ _ => 1
  | .part k _ _ => k
  | .call a | .skip a => a.vs + 1
  | .may a => a.vs
  | .rep a _ _ => a.vs + a.zs
  | .seq a b | .alt a b | .cond a b => a.vs + b.vs
  | .list a s _ _ => a.vs + s.vs + a.zs + s.zs

theorem zs_le : ∀ e : Plan ι, e.zs ≤ e.vs
  | .eps | .fail | .leaf _ | .part _ _ _ | .nt _ _ => Nat.le_refl _
  | .call a | .skip a | .may a | .rep a _ _ => by have := zs_le a; simp only [zs, vs]; omega
  | .seq a b | .alt a b | .cond a b | .list a b _ _ => by
    have := zs_le a; have := zs_le b; simp only [zs, vs]; omega

/-- What the constants have to satisfy. -/
structure Rates where
  q : Nat → Nat
  (S D K C M A : Nat)
  one : ∀ r, 1 ≤ q r
  step : ∀ r, 1 + S * q r ≤ q (r + 1)
  mono : ∀ {r r'}, r ≤ r' → q r ≤ q r'
  top : q (D + 1) ≤ K
  big : 1 + S * K ≤ C
  over : C * (D + 1) + S * K ≤ M
  pay : M + S + 1 ≤ A

variable {b : ι → Bool} {P : Bool → Nat → Plan ι} {N : Bool → Nat → Bool} {T : Bool → Nat → ι → Bool}
  {O : Bool → Nat → Option ι → Prop} {rank : Bool → Nat → Nat} (κ : Rates)

/-- A success in front of `y`, or a closure failing there. -/
def Good (b : ι → Bool) (κ : Rates) (H : Option ι → Prop) (Z V : Nat) (x y : List ι) (c : Nat) : Prop :=
  (nb b y = nb b x ∧ c ≤ Z) ∨ (nb b y < nb b x ∧ c + κ.M + κ.A * nb b y ≤ κ.A * nb b x + V) ∨
    (c ≤ κ.A * nb b x + V ∧ ¬ H (look b y))

def Fine (b : ι → Bool) (κ : Rates) (H : Option ι → Prop) (Z V : Nat) (x : List ι) (c : Nat) : End ι → Prop
  | .no => c ≤ κ.A * nb b x + V
  | .ok y | .late y => Good b κ H Z V x y c

variable {κ}

theorem Good.all {H : Option ι → Prop} {Z V c : Nat} {x y : List ι} (h : Good b κ H Z V x y c) (hZ : Z ≤ V) :
    c ≤ κ.A * nb b x + V := by
  rcases h with h | h | h <;> omega

theorem Fine.all {H : Option ι → Prop} {Z V c : Nat} {x : List ι} {r : End ι} (h : Fine b κ H Z V x c r) (hZ : Z ≤ V) :
    c ≤ κ.A * nb b x + V := by
  cases r with
  | no => exact h
  | ok y | late y => exact Good.all h hZ

theorem Good.mono {H H' : Option ι → Prop} {Z V Z' V' c : Nat} {x y : List ι} (h : Good b κ H Z V x y c)
    (hH : ∀ h, H' h → H h) (hZ : Z ≤ Z') (hV : V ≤ V') : Good b κ H' Z' V' x y c := by
  rcases h with h | h | ⟨h, hn⟩
  · exact .inl ⟨h.1, by omega⟩
  · exact .inr (.inl ⟨h.1, by omega⟩)
  · exact .inr (.inr ⟨by omega, fun h' => hn (hH _ h')⟩)

theorem Fine.mono {H H' : Option ι → Prop} {Z V Z' V' c : Nat} {x : List ι} {r : End ι} (h : Fine b κ H Z V x c r)
    (hH : ∀ h, H' h → H h) (hZ : Z ≤ Z') (hV : V ≤ V') : Fine b κ H' Z' V' x c r := by
  cases r with
  | no => exact Nat.le_trans h (by omega)
  | ok y | late y => exact Good.mono h hH hZ hV

/-- Two things in a row. -/
theorem Good.seq {H H' : Option ι → Prop} {Z1 V1 Z2 V2 W2 Z V c d : Nat} {x y : List ι} {r : End ι}
    (h1 : Good b κ H' Z1 V1 x y c)
    (zero : nb b y = nb b x → Fine b κ H Z2 V2 y d r)
    (cons : nb b y < nb b x → Fine b κ H Z2 W2 y d r)
    (dirty : ¬ H' (look b y) → d ≤ Z2 ∧ ∀ z, r.Stopped z → ¬ H (look b z))
    (e1 : nb b y = nb b x → Z1 + Z2 ≤ Z) (e2 : nb b y = nb b x → Z1 + V2 ≤ V) (e3 : V1 + Z2 ≤ V)
    (e4 : V1 + W2 ≤ V + κ.M) : Fine b κ H Z V x (c + d) r := by
  rcases h1 with ⟨hn, h1⟩ | ⟨hn, h1⟩ | ⟨h1, hn⟩
  · have h2 := zero hn
    have e1 := e1 hn
    have e2 := e2 hn
    cases r with
    | no => have : d ≤ _ := h2; show _ ≤ _; rw [hn] at this; omega
    | ok z | late z =>
      show Good _ _ _ _ _ _ _ _
      rcases (show Good _ _ _ _ _ _ _ _ from h2) with h2 | h2 | h2
      · exact .inl ⟨by omega, by omega⟩
      · rw [hn] at h2; exact .inr (.inl ⟨h2.1, by omega⟩)
      · rw [hn] at h2; exact .inr (.inr ⟨by omega, h2.2⟩)
  · have h2 := cons hn
    cases r with
    | no => have : d ≤ _ := h2; show _ ≤ _; omega
    | ok z | late z =>
      show Good _ _ _ _ _ _ _ _
      rcases (show Good _ _ _ _ _ _ _ _ from h2) with h2 | h2 | h2
      · rw [← h2.1] at hn; rw [← h2.1] at h1; exact .inr (.inl ⟨hn, by omega⟩)
      · exact .inr (.inl ⟨by omega, by omega⟩)
      · exact .inr (.inr ⟨by omega, h2.2⟩)
  · obtain ⟨h2, hz⟩ := dirty hn
    cases r with
    | no => show _ ≤ _; omega
    | ok z | late z => exact .inr (.inr ⟨by omega, hz z rfl⟩)

theorem Ate.le {e : Plan ι} {x y : List ι} (h : Ate b N T e x y) : nb b y ≤ nb b x := by
  obtain ⟨t, rfl, _⟩ := h
  rw [nb_append]; omega

theorem Ate.zero {e : Plan ι} {x y : List ι} (h : Ate b N T e x y) (hn : nb b y = nb b x) :
    e.nullable N = true ∧ look b y = look b x := by
  obtain ⟨t, rfl, ha, _⟩ := h
  rw [nb_append] at hn
  have := nb_blank.mp (show nb b t = 0 by omega)
  exact ⟨ha this, (look_blank this).symm⟩

theorem Ate.far {e : Plan ι} {x y : List ι} (h : Ate b N T e x y) (hf : ¬ Near b N T e x) :
    e.nullable N = true ∧ look b y = look b x ∧ nb b y = nb b x := by
  obtain ⟨t, rfl, ha, hb⟩ := h
  by_cases ht : Blank b t
  · exact ⟨ha ht, (look_blank ht).symm, by rw [nb_append, nb_blank.mpr ht]; omega⟩
  · exact absurd (hb ht) hf

theorem leftBelow_top {D : Nat} (h : ∀ k i, rank k i ≤ D) : ∀ e : Plan ι, e.leftBelow N rank (D + 1)
  | .eps | .fail | .leaf _ | .part _ _ _ => trivial
  | .nt k i => Nat.lt_succ_of_le (h k i)
  | .call a | .skip a | .may a | .rep a _ _ => leftBelow_top h a
  | .seq a b | .cond a b | .list a b _ _ => ⟨leftBelow_top h a, fun _ => leftBelow_top h b⟩
  | .alt a b => ⟨leftBelow_top h a, leftBelow_top h b⟩

/-- The bound. -/
def Bound (b : ι → Bool) (N : Bool → Nat → Bool) (T : Bool → Nat → ι → Bool) (O : Bool → Nat → Option ι → Prop)
    (rank : Bool → Nat → Nat) (κ : Rates) (e : Plan ι) (x : List ι) (r : End ι) (c : Nat) : Prop :=
  ∀ H r0, e.Decided N T O H → e.leftBelow N rank r0 → r0 ≤ κ.D + 1 → e.vs ≤ κ.S →
    (¬ Near b N T e x → c ≤ e.zs * κ.q r0) ∧ Fine b κ H (e.zs * κ.q r0) (e.vs * κ.K + κ.C * r0) x c r

theorem Rates.q_le {r0 : Nat} (h : r0 ≤ κ.D + 1) (n : Nat) : n * κ.q r0 ≤ n * κ.K :=
  Nat.mul_le_mul_left _ (Nat.le_trans (κ.mono h) κ.top)

theorem Rates.z_le {r0 : Nat} (h : r0 ≤ κ.D + 1) (e : Plan ι) : e.zs * κ.q r0 ≤ e.vs * κ.K :=
  Nat.le_trans (κ.q_le h _) (Nat.mul_le_mul_right _ (zs_le e))

theorem Rates.v_le (e : Plan ι) (h : e.vs ≤ κ.S) : e.vs * κ.K ≤ κ.S * κ.K := Nat.mul_le_mul_right _ h

/-- `e`, then `f`. -/
theorem bound_seq {e f g : Plan ι} {x y : List ι} {r : End ι} {c d : Nat}
    (hz : g.zs = e.zs + f.zs) (hv : g.vs = e.vs + f.vs)
    (hf : ∀ c, g.first N T c = (e.first N T c || (e.nullable N && f.first N T c)))
    (hrank : ∀ k i, rank k i ≤ κ.D)
    (ih1 : Bound b N T O rank κ e x (.ok y) c) (ih2 : Bound b N T O rank κ f y r d)
    (a1 : Ate b N T e x y) (a2 : ∀ z, r.Stopped z → Ate b N T f y z)
    {H : Option ι → Prop} {r0 : Nat} (hd1 : e.Decided N T O (Next (f.first N T) (f.nullable N) H)) (hd2 : f.Decided N T O H)
    (hl : e.leftBelow N rank r0 ∧ (e.nullable N = true → f.leftBelow N rank r0)) (h0 : r0 ≤ κ.D + 1) (hs : g.vs ≤ κ.S) :
    (¬ Near b N T g x → c + d ≤ g.zs * κ.q r0) ∧
      Fine b κ H (g.zs * κ.q r0) (g.vs * κ.K + κ.C * r0) x (c + d) r := by
  obtain ⟨f1, g1⟩ := ih1 _ r0 hd1 hl.1 h0 (by omega)
  have top := ih2 H (κ.D + 1) hd2 (leftBelow_top hrank f) (Nat.le_refl _) (by omega)
  have here := fun hn => ih2 H r0 hd2 (hl.2 hn) h0 (by omega)
  have m1 := κ.z_le h0 e
  have m2 := κ.z_le h0 f
  have m3 := κ.z_le (Nat.le_refl _) f
  have m4 := Nat.mul_le_mul_left f.zs (κ.mono h0)
  have m5 := κ.over
  have m6 := κ.v_le g hs
  rw [hv, Nat.add_mul] at m6
  refine ⟨fun hn => ?_, ?_⟩
  · have hn1 : ¬ Near b N T e x := fun ⟨c, h1, h2⟩ => hn ⟨c, h1, by rw [hf, h2]; rfl⟩
    obtain ⟨k1, k2, _⟩ := a1.far hn1
    have hn2 : ¬ Near b N T f y := fun ⟨c, h1, h2⟩ => hn ⟨c, by rw [← k2]; exact h1, by rw [hf, h2, k1]; simp⟩
    have := f1 hn1
    have := (here k1).1 hn2
    rw [hz, Nat.add_mul]; omega
  · rw [hz, hv, Nat.add_mul, Nat.add_mul]
    have hfar : ¬ Next (f.first N T) (f.nullable N) H (look b y) → ¬ Near b N T f y :=
      fun hn ⟨c, h1, h2⟩ => hn (.inl ⟨c, h1, h2⟩)
    by_cases hzero : nb b y = nb b x
    · -- nothing but blanks
      obtain ⟨k1, k2⟩ := a1.zero hzero
      obtain ⟨f2, g2⟩ := here k1
      refine Good.seq (Z2 := f.zs * κ.q r0) (V2 := f.vs * κ.K + κ.C * r0) (W2 := f.vs * κ.K + κ.C * (κ.D + 1)) g1
        (fun _ => g2) (fun h => by omega) (fun hn => ⟨f2 (hfar hn), fun z hz => ?_⟩)
        (by omega) (by omega) (by omega) (by omega)
      obtain ⟨j1, j2, _⟩ := (a2 z hz).far (hfar hn)
      rw [j2]; exact fun h => hn (.inr ⟨j1, h⟩)
    · obtain ⟨f2, g2⟩ := top
      refine Good.seq (Z2 := f.zs * κ.q (κ.D + 1)) (V2 := 0) (W2 := f.vs * κ.K + κ.C * (κ.D + 1)) g1
        (fun h => absurd h hzero) (fun _ => g2) (fun hn => ⟨f2 (hfar hn), fun z hz => ?_⟩)
        (fun h => absurd h hzero) (fun h => absurd h hzero) (by omega) (by omega)
      obtain ⟨j1, j2, _⟩ := (a2 z hz).far (hfar hn)
      rw [j2]; exact fun h => hn (.inr ⟨j1, h⟩)

/-- A failure that ends a loop. -/
theorem bound_stop {a : Plan ι} {x z : List ι} {r : End ι} {c : Nat} (hz : r.Left b x z)
    (ih : Bound b N T O rank κ a x r c) (ha : ∀ y, r.Stopped y → Ate b N T a x y)
    {F : ι → Bool} {H : Option ι → Prop} {r0 : Nat} (hd : a.Decided N T O (Next F true H))
    (hn : ∀ x, a.first N T x = true → ¬ H (some x)) (hl : a.leftBelow N rank r0) (h0 : r0 ≤ κ.D + 1) (hs : a.vs ≤ κ.S)
    (p : Prop) [Decidable p] :
    (¬ Near b N T a x → c ≤ a.zs * κ.q r0 ∧ look b z = look b x ∧ nb b z = nb b x) ∧
    Fine b κ H (a.zs * κ.q r0) (a.vs * κ.K + κ.C * r0) x c (if p then .ok z else .no) := by
  obtain ⟨f1, g1⟩ := ih _ r0 hd hl h0 hs
  have m1 := κ.z_le h0 a
  cases r with
  | ok => cases hz
  | no =>
    have hl : look b z = look b x ∧ nb b z = nb b x := by
      rcases hz with rfl | rfl
      · exact ⟨rfl, rfl⟩
      · exact ⟨look_drop x, nb_drop x⟩
    refine ⟨fun h => ⟨f1 h, hl⟩, ?_⟩
    split
    · by_cases hx : Near b N T a x
      · obtain ⟨k, h1, h2⟩ := hx
        refine .inr (.inr ⟨g1, ?_⟩)
        rw [hl.1, h1]; exact hn k h2
      · exact .inl ⟨hl.2, f1 hx⟩
    · exact g1
  | late y =>
    cases hz
    refine ⟨fun h => ⟨f1 h, ((ha z rfl).far h).2⟩, ?_⟩
    split
    · exact Good.mono g1 (fun h hh => .inr ⟨rfl, hh⟩) (Nat.le_refl _) (Nat.le_refl _)
    · exact Good.all g1 (by omega)

/-- The number of calls is paid for. -/
theorem takes_bound (hN : ∀ k i, (P k i).nullable N = true → N k i = true)
    (hT : ∀ k i x, (P k i).first N T x = true → T k i x = true) (hC : ∀ k i, (P k i).Clear b)
    (hD : ∀ k i, (P k i).Decided N T O (O k i)) (hL : ∀ k i, (P k i).leftBelow N rank (rank k i))
    (hrank : ∀ k i, rank k i ≤ κ.D) (hS : ∀ k i, (P k i).vs ≤ κ.S)
    {e : Plan ι} {x : List ι} {r : End ι} {c : Nat} (h : Takes b P e x r c) (hc : e.Clear b) :
    Bound b N T O rank κ e x r c := by
  have ate := fun {e : Plan ι} {x : List ι} {r : End ι} {c : Nat} (h : Takes b P e x r c) (hc : e.Clear b) =>
    takes_ate hN hT hC h hc
  induction h with
  | eps => exact fun H r0 _ _ _ _ => ⟨fun _ => Nat.zero_le _, .inl ⟨rfl, Nat.zero_le _⟩⟩
  | fail | leaf_no =>
    intro H r0 _ _ h0 _
    have := κ.one r0
    have := Nat.le_trans (κ.mono h0) κ.top
    refine ⟨fun _ => ?_, ?_⟩
    · simp only [zs]; omega
    · simp only [Fine, vs]; omega
  | @leaf_ok e x y h =>
    intro H r0 _ _ h0 _
    have h1 := κ.one r0
    have h2 := Nat.le_trans (κ.mono h0) κ.top
    refine ⟨fun _ => by simp only [zs]; omega, ?_⟩
    simp only [Fine, vs, zs]
    have hle := (ate (.leaf_ok h) hc y rfl).le
    by_cases hz : nb b y = nb b x
    · exact .inl ⟨hz, by omega⟩
    · refine .inr (.inl ⟨by omega, ?_⟩)
      have : κ.A * nb b y + κ.A ≤ κ.A * nb b x := by
        rw [← Nat.mul_succ]; exact Nat.mul_le_mul_left _ (by omega)
      have := κ.pay
      omega
  | @part_ok k n f x t y c h ha hf hk =>
    intro H r0 _ _ h0 hs
    have h1 := κ.one r0
    have h2 := Nat.le_trans (κ.mono h0) κ.top
    have h3 := Nat.mul_le_mul_left k h1
    have h4 := Nat.mul_le_mul_left k (Nat.le_trans h1 h2)
    have at' := ate (.part_ok h ha hf hk) hc y rfl
    subst h
    have hk : c ≤ k + k * nb b t := hk
    simp only [vs] at hs
    have hp := κ.pay
    refine ⟨fun hn => ?_, ?_⟩
    · have := (at'.far hn).2.2
      rw [nb_append] at this
      rw [show nb b t = 0 by omega] at hk
      simp only [zs]; omega
    · simp only [Fine, vs, zs]
      by_cases hz : nb b t = 0
      · rw [hz] at hk; exact .inl ⟨by rw [nb_append]; omega, by omega⟩
      · refine .inr (.inl ⟨by rw [nb_append]; omega, ?_⟩)
        rw [nb_append, Nat.mul_add]
        have := Nat.mul_le_mul_right (nb b t) (show k + κ.M ≤ κ.A by omega)
        rw [Nat.add_mul] at this
        have := Nat.le_mul_of_pos_right κ.M (show 0 < nb b t by omega)
        omega
  | @part_no k n f x c hk =>
    intro H r0 _ _ h0 hs
    have h1 := κ.one r0
    have h2 := Nat.le_trans (κ.mono h0) κ.top
    have h3 := Nat.mul_le_mul_left k h1
    have h4 := Nat.mul_le_mul_left k (Nat.le_trans h1 h2)
    simp only [vs] at hs
    have hp := κ.pay
    refine ⟨fun hn => ?_, ?_⟩
    · rcases hk with hk | ⟨hk, _⟩
      · simp only [zs]; omega
      · exact absurd hk hn
    · simp only [Fine, vs]
      rcases hk with hk | ⟨_, hk⟩
      · omega
      · have hk : c ≤ k + k * nb b x := hk
        have := Nat.mul_le_mul_right (nb b x) (show k ≤ κ.A by omega)
        omega
  | @nt k i x r c _ ih =>
    intro H r0 hd hl h0 _
    obtain ⟨f1, g1⟩ := ih (hC k i) (O k i) (rank k i) (hD k i) (hL k i) (by have := hrank k i; omega) (hS k i)
    have hl : rank k i + 1 ≤ r0 := hl
    have h1 := κ.step (rank k i)
    have h2 := κ.mono hl
    have h3 := Nat.mul_le_mul_right (κ.q (rank k i)) (Nat.le_trans (zs_le _) (hS k i))
    have h4 := Nat.le_trans (κ.mono h0) κ.top
    have h5 := κ.big
    have h6 := Nat.mul_le_mul_left κ.C hl
    have h7 := κ.v_le _ (hS k i)
    rw [Nat.mul_add] at h6
    refine ⟨fun hn => ?_, ?_⟩
    · have := f1 fun ⟨c, h1, h2⟩ => hn ⟨c, h1, hT k i c h2⟩
      simp only [zs]; omega
    · simp only [zs, vs, Nat.one_mul]
      cases r with
      | no => have : c ≤ _ := g1; simp only [Fine]; omega
      | ok y | late y =>
        rcases (show Good _ _ _ _ _ _ _ _ from g1) with g | g | g
        · exact .inl ⟨g.1, by omega⟩
        · exact .inr (.inl ⟨g.1, by omega⟩)
        · exact .inr (.inr ⟨by omega, fun h => g.2 (hd _ h)⟩)
  | @call a x r c _ ih =>
    intro H r0 hd hl h0 hs
    obtain ⟨f1, g1⟩ := ih hc H r0 hd hl h0 (by simp only [vs] at hs; omega)
    have h1 := κ.one r0
    have h2 := Nat.le_trans (κ.mono h0) κ.top
    refine ⟨fun hn => ?_, ?_⟩
    · have := f1 hn
      simp only [zs, Nat.add_mul]; omega
    · simp only [zs, vs, Nat.add_mul, Nat.one_mul]
      cases r with
      | no => have : c ≤ _ := g1; simp only [Fine]; omega
      | ok y | late y =>
        rcases (show Good _ _ _ _ _ _ _ _ from g1) with g | g | g
        · exact .inl ⟨g.1, by omega⟩
        · exact .inr (.inl ⟨g.1, by omega⟩)
        · exact .inr (.inr ⟨by omega, g.2⟩)
  | @skip a x r c _ ih =>
    intro H r0 hd hl h0 hs
    obtain ⟨f1, g1⟩ := ih hc H r0 hd hl h0 (by simp only [vs] at hs; omega)
    have h1 := κ.one r0
    have h2 := Nat.le_trans (κ.mono h0) κ.top
    refine ⟨fun hn => ?_, ?_⟩
    · have := f1 fun h => hn (near_drop.mp h)
      simp only [zs, Nat.add_mul]; omega
    · simp only [zs, vs, Nat.add_mul, Nat.one_mul]
      cases r with
      | no => have : c ≤ _ := g1; rw [nb_drop] at this; simp only [Fine]; omega
      | ok y | late y =>
        rcases (show Good _ _ _ _ _ _ _ _ from g1) with g | g | g <;> rw [nb_drop] at g
        · exact .inl ⟨g.1, by omega⟩
        · exact .inr (.inl ⟨g.1, by omega⟩)
        · exact .inr (.inr ⟨by omega, g.2⟩)
  | may _ ih => exact ih hc
  | may_late _ ih => exact ih hc
  | @seq_ok e f x y z c d t1 t2 ih1 ih2 =>
    intro H r0 hd hl h0 hs
    exact bound_seq rfl rfl (fun _ => rfl) hrank (ih1 hc.1) (ih2 hc.2) (ate t1 hc.1 y rfl) (ate t2 hc.2) hd.1 hd.2 hl h0 hs
  | @seq_no2 e f x y r c d t1 t2 hr ih1 ih2 =>
    intro H r0 hd hl h0 hs
    obtain ⟨k1, k2⟩ := bound_seq (g := .seq e f) rfl rfl (fun _ => rfl) hrank (ih1 hc.1) (ih2 hc.2) (ate t1 hc.1 y rfl)
      (ate t2 hc.2) hd.1 hd.2 hl h0 hs
    exact ⟨k1, k2.all (by have := κ.z_le h0 (.seq e f); omega)⟩
  | @seq_no e f x r c t1 hr ih1 =>
    intro H r0 hd hl h0 hs
    simp only [vs] at hs
    obtain ⟨f1, g1⟩ := ih1 hc.1 _ r0 hd.1 hl.1 h0 (by omega)
    refine ⟨fun hn => ?_, ?_⟩
    · have := f1 fun ⟨c, h1, h2⟩ => hn ⟨c, h1, by simp [first, h2]⟩
      simp only [zs, Nat.add_mul]; omega
    · have := g1.all (by have := κ.z_le h0 e; omega)
      simp only [Fine, vs, Nat.add_mul]; omega
  | @alt_1 e f x y c t1 ih1 =>
    intro H r0 hd hl h0 hs
    simp only [vs] at hs
    obtain ⟨f1, g1⟩ := ih1 hc.1 _ r0 hd.1 hl.1 h0 (by omega)
    refine ⟨fun hn => ?_, ?_⟩
    · have := f1 fun ⟨c, h1, h2⟩ => hn ⟨c, h1, by simp [first, h2]⟩
      simp only [zs, Nat.add_mul]; omega
    · exact Fine.mono g1 (fun _ h => h) (by simp only [zs, Nat.add_mul]; omega) (by simp only [vs, Nat.add_mul]; omega)
  | @alt_2 e f x r y c d t1 hr t2 ih1 ih2 =>
    intro H r0 hd hl h0 hs
    simp only [vs] at hs
    obtain ⟨f1, g1⟩ := ih1 hc.1 _ r0 hd.1 hl.1 h0 (by omega)
    obtain ⟨f2, g2⟩ := ih2 hc.2 _ r0 hd.2.1 hl.2 h0 (by omega)
    have m1 := κ.z_le h0 e
    have m2 := κ.z_le h0 f
    refine ⟨fun hn => ?_, ?_⟩
    · have := f1 fun ⟨c, h1, h2⟩ => hn ⟨c, h1, by simp [first, h2]⟩
      have := f2 fun ⟨c, h1, h2⟩ => hn ⟨c, h1, by simp [first, h2]⟩
      simp only [zs, Nat.add_mul]; omega
    · simp only [zs, vs, Nat.add_mul]
      by_cases hx : Near b N T e x
      · obtain ⟨k, h1, h2⟩ := hx
        obtain ⟨h3, h4⟩ := hd.2.2 k h2
        have hf : ¬ Near b N T f x := fun ⟨k', h1', h2'⟩ => by
          rw [h1] at h1'; cases h1'; rw [h3] at h2'; cases h2'
        obtain ⟨j1, j2, _⟩ := (ate t2 hc.2 y rfl).far hf
        have := f2 hf
        have := g1.all (by omega)
        refine .inr (.inr ⟨by omega, ?_⟩)
        rw [j2, h1]; exact h4 j1
      · have := f1 hx
        rcases (show Good _ _ _ _ _ _ _ _ from g2) with g | g | g
        · exact .inl ⟨g.1, by omega⟩
        · exact .inr (.inl ⟨g.1, by omega⟩)
        · exact .inr (.inr ⟨by omega, g.2⟩)
  | @alt_no e f x r s c d t1 hr t2 hs' ih1 ih2 =>
    intro H r0 hd hl h0 hs
    simp only [vs] at hs
    obtain ⟨f1, g1⟩ := ih1 hc.1 _ r0 hd.1 hl.1 h0 (by omega)
    obtain ⟨f2, g2⟩ := ih2 hc.2 _ r0 hd.2.1 hl.2 h0 (by omega)
    have m1 := κ.z_le h0 e
    have m2 := κ.z_le h0 f
    refine ⟨fun hn => ?_, ?_⟩
    · have := f1 fun ⟨c, h1, h2⟩ => hn ⟨c, h1, by simp [first, h2]⟩
      have := f2 fun ⟨c, h1, h2⟩ => hn ⟨c, h1, by simp [first, h2]⟩
      simp only [zs, Nat.add_mul]; omega
    · simp only [Fine, vs, Nat.add_mul]
      by_cases hx : Near b N T e x
      · obtain ⟨k, h1, h2⟩ := hx
        obtain ⟨h3, h4⟩ := hd.2.2 k h2
        have hf : ¬ Near b N T f x := fun ⟨k', h1', h2'⟩ => by
          rw [h1] at h1'; cases h1'; rw [h3] at h2'; cases h2'
        have := f2 hf
        have := g1.all (by omega)
        omega
      · have := f1 hx
        have := g2.all (by omega)
        omega
  | @cond_not e f x r c t1 hr ih1 =>
    intro H r0 hd hl h0 hs
    simp only [vs] at hs
    obtain ⟨f1, g1⟩ := ih1 hc.1 _ r0 hd.1 hl.1 h0 (by omega)
    have m1 := κ.z_le h0 e
    refine ⟨fun hn => ?_, ?_⟩
    · have := f1 fun ⟨c, h1, h2⟩ => hn ⟨c, h1, by simp [first, h2]⟩
      simp only [zs, Nat.add_mul]; omega
    · simp only [zs, vs, Nat.add_mul]
      by_cases hx : Near b N T e x
      · obtain ⟨k, h1, h2⟩ := hx
        have := g1.all (by omega)
        refine .inr (.inr ⟨by omega, ?_⟩)
        rw [h1]; exact hd.2.2 k h2
      · have := f1 hx
        exact .inl ⟨rfl, by omega⟩
  | @cond_ok e f x y z c d t1 t2 ih1 ih2 =>
    intro H r0 hd hl h0 hs
    exact bound_seq rfl rfl (fun _ => rfl) hrank (ih1 hc.1) (ih2 hc.2) (ate t1 hc.1 y rfl) (ate t2 hc.2) hd.1 hd.2.1 hl h0 hs
  | @cond_no e f x y r c d t1 t2 hr ih1 ih2 =>
    intro H r0 hd hl h0 hs
    obtain ⟨k1, k2⟩ := bound_seq (g := .cond e f) rfl rfl (fun _ => rfl) hrank (ih1 hc.1) (ih2 hc.2) (ate t1 hc.1 y rfl)
      (ate t2 hc.2) hd.1 hd.2.1 hl h0 hs
    exact ⟨k1, k2.all (by have := κ.z_le h0 (.cond e f); omega)⟩
  | @rep_lim a m x =>
    intro H r0 hd hl h0 hs
    refine ⟨fun _ => Nat.zero_le _, ?_⟩
    split
    · exact .inl ⟨rfl, Nat.zero_le _⟩
    · exact Nat.zero_le _
  | @rep_stop a m n x r z c _ t hz ih =>
    intro H r0 hd hl h0 hs
    simp only [vs] at hs
    obtain ⟨f1, g1⟩ := bound_stop hz (ih hc) (ate t hc) hd.1 hd.2.2 hl h0 (by omega) (m = 0)
    refine ⟨fun hn => (f1 hn).1, g1.mono (fun _ h => h) (Nat.le_refl _) ?_⟩
    simp only [vs, Nat.add_mul]; omega
  | @rep_more a m n x y r c d _ t1 t2 ih1 ih2 =>
    intro H r0 hd hl h0 hs
    have hs' := hs
    simp only [vs] at hs
    obtain ⟨f1, g1⟩ := ih1 hc _ r0 hd.1 hl h0 (by omega)
    obtain ⟨f2, g2⟩ := ih2 hc H (κ.D + 1) hd (leftBelow_top hrank _) (Nat.le_refl _) hs'
    have a1 := ate t1 hc y rfl
    have hne : nb b y ≠ nb b x := fun h => by
      have := (a1.zero h).1; rw [hd.2.1] at this; cases this
    have m3 := κ.q_le (Nat.le_refl _) a.zs
    have m5 := κ.over
    have m6 := κ.v_le _ hs'
    simp only [vs, Nat.add_mul] at m6
    refine ⟨fun hn => ?_, ?_⟩
    · exact absurd (a1.far hn).2.2 hne
    · simp only [zs, vs, Nat.add_mul] at f2 g2 ⊢
      refine Good.seq (Z2 := a.zs * κ.q (κ.D + 1)) (V2 := 0)
        (W2 := a.vs * κ.K + a.zs * κ.K + κ.C * (κ.D + 1)) g1
        (fun h => absurd h hne) (fun _ => g2) (fun hn => ?_)
        (fun h => absurd h hne) (fun h => absurd h hne) (by omega) (by omega)
      have hf : ¬ Near b N T a y := fun ⟨c, h1, h2⟩ => hn (.inl ⟨c, h1, h2⟩)
      refine ⟨f2 hf, fun z hz => ?_⟩
      rw [((ate t2 hc z hz).far hf).2.1]
      exact fun h => hn (.inr ⟨rfl, h⟩)
  | @list_stop a s k m x r z c t hz ih =>
    intro H r0 hd hl h0 hs
    simp only [vs] at hs
    obtain ⟨f1, g1⟩ := bound_stop hz (ih hc.1) (ate t hc.1) hd.1 (fun x h => hd.2.2.2.2 x (.inl h)) hl.1 h0 (by omega) (m = 0)
    refine ⟨fun hn => (f1 fun ⟨c, h1, h2⟩ => hn ⟨c, h1, by simp [first, h2]⟩).1,
      g1.mono (fun _ h => h) (Nat.le_refl _) ?_⟩
    simp only [vs, Nat.add_mul]; omega
  | @list_last a s k m x y r z c d t1 t2 hz ih1 ih2 =>
    intro H r0 hd hl h0 hs
    have hs' := hs
    simp only [vs] at hs
    obtain ⟨f1, g1⟩ := ih1 hc.1 _ r0 hd.1 hl.1 h0 (by omega)
    obtain ⟨f2, g2⟩ := bound_stop (r0 := κ.D + 1) hz (ih2 hc.2) (ate t2 hc.2) hd.2.1 (fun x h => hd.2.2.2.2 x (.inr h))
      (leftBelow_top hrank _) (Nat.le_refl _) (by omega) (m - k.toNat = 0)
    have a1 := ate t1 hc.1 y rfl
    have hne : nb b y ≠ nb b x := fun h => by
      have := (a1.zero h).1; rw [hd.2.2.1] at this; cases this
    have m3 := κ.q_le (Nat.le_refl _) s.zs
    have m5 := κ.over
    have m6 := κ.v_le _ hs'
    simp only [vs, Nat.add_mul] at m6
    refine ⟨fun hn => ?_, ?_⟩
    · exact absurd (a1.far fun ⟨c, h1, h2⟩ => hn ⟨c, h1, by simp [first, h2]⟩).2.2 hne
    · simp only [zs, vs, Nat.add_mul]
      refine Good.seq (Z2 := s.zs * κ.q (κ.D + 1)) (V2 := 0)
        (W2 := s.vs * κ.K + κ.C * (κ.D + 1)) g1
        (fun h => absurd h hne) (fun _ => g2) (fun hn => ?_)
        (fun h => absurd h hne) (fun h => absurd h hne) (by omega) (by omega)
      have hf : ¬ Near b N T s y := fun ⟨c, h1, h2⟩ => hn (.inl ⟨c, h1, h2⟩)
      refine ⟨(f2 hf).1, fun z' hz' => ?_⟩
      split at hz'
      · cases hz'
        rw [(f2 hf).2.1]
        exact fun h => hn (.inr ⟨rfl, h⟩)
      · cases hz'
  | @list_more a s k m x y z r c d f t1 t2 t3 ih1 ih2 ih3 =>
    intro H r0 hd hl h0 hs
    have hs' := hs
    simp only [vs] at hs
    obtain ⟨f1, g1⟩ := ih1 hc.1 _ r0 hd.1 hl.1 h0 (by omega)
    obtain ⟨f2, g2⟩ := ih2 hc.2 _ (κ.D + 1) hd.2.1 (leftBelow_top hrank _) (Nat.le_refl _) (by omega)
    obtain ⟨f3, g3⟩ := ih3 hc H (κ.D + 1) hd (leftBelow_top hrank _) (Nat.le_refl _) hs'
    have a1 := ate t1 hc.1 y rfl
    have a2 := ate t2 hc.2 z rfl
    have hne : nb b y ≠ nb b x := fun h => by
      have := (a1.zero h).1; rw [hd.2.2.1] at this; cases this
    have hne2 : nb b z ≠ nb b y := fun h => by
      have := (a2.zero h).1; rw [hd.2.2.2.1] at this; cases this
    have m3 := κ.q_le (Nat.le_refl _) a.zs
    have m5 := κ.over
    have m6 := κ.v_le _ hs'
    simp only [vs, Nat.add_mul] at m6
    refine ⟨fun hn => ?_, ?_⟩
    · exact absurd (a1.far fun ⟨c, h1, h2⟩ => hn ⟨c, h1, by simp [first, h2]⟩).2.2 hne
    · simp only [zs, vs, Nat.add_mul] at f3 g3 ⊢
      have n3 : ∀ {y}, ¬ Next (a.first N T) true H (look b y) → ¬ Near b N T (.list a s k (m - 1)) y :=
        fun hn ⟨c, h1, h2⟩ => hn (.inl ⟨c, h1, by simpa [first, hd.2.2.1] using h2⟩)
      have g12 : Good b κ (Next (a.first N T) true H) 0 (a.vs * κ.K + s.vs * κ.K + κ.C * r0) x z (c + d) := by
        rcases g1 with g | g | ⟨_, g⟩
        · exact absurd g.1 hne
        · rcases g2 with g' | g' | g'
          · exact absurd g'.1 hne2
          · exact .inr (.inl ⟨by omega, by omega⟩)
          · exact .inr (.inr ⟨by omega, g'.2⟩)
        · have hf : ¬ Near b N T s y := fun ⟨c, h1, h2⟩ => g (.inl ⟨c, h1, h2⟩)
          exact absurd (a2.far hf).2.2 hne2
      have hxz : nb b z ≠ nb b x := by have := a1.le; have := a2.le; omega
      refine Good.seq (Z2 := a.zs * κ.q (κ.D + 1)) (V2 := 0)
        (W2 := a.vs * κ.K + s.vs * κ.K + a.zs * κ.K + s.zs * κ.K + κ.C * (κ.D + 1)) g12
        (fun h => absurd h hxz) (fun _ => g3) (fun hn => ?_)
        (fun h => absurd h hxz) (fun h => absurd h hxz) (by omega) (by omega)
      refine ⟨f3 (n3 hn), fun w hw => ?_⟩
      rw [((ate t3 hc w hw).far (n3 hn)).2.1]
      exact fun h => hn (.inr ⟨rfl, h⟩)

/-- Rates for sizes up to `S` and ranks up to `D`. -/
def Rates.q0 (S : Nat) : Nat → Nat
  | 0 => 1
  | r + 1 => Rates.q0 S r + (1 + S * Rates.q0 S r)

theorem Rates.q0_mono (S : Nat) {r r' : Nat} (h : r ≤ r') : Rates.q0 S r ≤ Rates.q0 S r' := by
  induction h with
  | refl => exact Nat.le_refl _
  | step _ ih => exact Nat.le_trans ih (by simp only [Rates.q0]; omega)

def Rates.of (S D : Nat) : Rates where
  q := Rates.q0 S
  S := S
  D := D
  K := Rates.q0 S (D + 1)
  C := 1 + S * Rates.q0 S (D + 1)
  M := (1 + S * Rates.q0 S (D + 1)) * (D + 1) + S * Rates.q0 S (D + 1)
  A := (1 + S * Rates.q0 S (D + 1)) * (D + 1) + S * Rates.q0 S (D + 1) + S + 1
  one r := Rates.q0_mono S (Nat.zero_le r)
  step r := by simp only [Rates.q0]; omega
  mono h := Rates.q0_mono S h
  top := Nat.le_refl _
  big := Nat.le_refl _
  over := Nat.le_refl _
  pay := Nat.le_refl _

theorem bounded_vs (l : List (Plan ι)) : ∃ S, ∀ e ∈ l, e.vs ≤ S := by
  induction l with
  | nil => exact ⟨0, fun e he => by cases he⟩
  | cons a l ih =>
    obtain ⟨S, h⟩ := ih
    refine ⟨max a.vs S, fun e he => ?_⟩
    rcases List.mem_cons.mp he with rfl | he
    · exact Nat.le_max_left _ _
    · exact Nat.le_trans (h e he) (Nat.le_max_right _ _)

/-- Linear in the number of items that are no blanks. -/
theorem takes_linear (h : OneAhead b P N T O) {e : Plan ι} (hc : e.Clear b) (hd : e.Decided N T O fun _ => False) :
    ∃ A B, ∀ x r c, Takes b P e x r c → c ≤ A * nb b x + B := by
  obtain ⟨l, hl⟩ := h.finite
  obtain ⟨rank, D, hr⟩ := h.noLeft
  obtain ⟨S, hS⟩ := bounded_vs (e :: l)
  refine ⟨(Rates.of S D).A, e.vs * (Rates.of S D).K + (Rates.of S D).C * (D + 1), fun x r c ht => ?_⟩
  have := takes_bound (κ := Rates.of S D) (rank := rank) h.empty h.begins h.clear h.decided (fun k i => (hr k i).1)
    (fun k i => (hr k i).2) (fun k i => hS _ (List.mem_cons_of_mem _ (hl k i))) ht hc (fun _ => False) (D + 1) hd
    (leftBelow_top (fun k i => (hr k i).2) e) (Nat.le_refl _) (hS e List.mem_cons_self)
  exact this.2.all (by have := (Rates.of S D).z_le (Nat.le_refl (D + 1)) e; exact Nat.le_trans this (Nat.le_add_right _ _))

end Plan
end Neure
