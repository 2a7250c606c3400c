import Verif.LinearSpec
import Verif.PropsCfg
import Verif.PropsSpace
/-!
# Where one item of lookahead decides: the number of calls
-/

namespace Neure

set_option linter.unusedSectionVars false

namespace Plan
variable {ι : Type}

/-- How a call ends: it succeeds in front of `y`, it fails where it began (or behind the
blanks there), or a closure fails in front of `y`. -/
inductive End (ι : Type) where
  | ok (y : List ι)
  | no
  | late (y : List ι)

def End.fails : End ι → Prop
  | .ok _ => False
  | _ => True

/-- Where a failed call leaves the context. -/
def End.Left (b : ι → Bool) (x : List ι) : End ι → List ι → Prop
  | .ok _, _ => False
  | .no, z => z = x ∨ z = x.dropWhile b
  | .late y, z => z = y

/-- `Takes b P e x r c`: `e` on `x` ends in `r` after `c` calls. -/
inductive Takes (b : ι → Bool) (P : Bool → Nat → Plan ι) : Plan ι → List ι → End ι → Nat → Prop where
  | eps {x} : Takes b P .eps x (.ok x) 0
  | fail {x} : Takes b P .fail x .no 1
  | leaf_ok {e x y} : Ford (fun _ => .cls fun _ => false) e x (some y) → Takes b P (.leaf e) x (.ok y) 1
  | leaf_no {e x} : Ford (fun _ => .cls fun _ => false) e x none → Takes b P (.leaf e) x .no 1
  | part_ok {k n f x t y c} : x = t ++ y → (ahead b t = none → n = true) → (∀ a, ahead b t = some a → f a = true) →
      (c ≤ k + k * t.countP fun a => !b a) → Takes b P (.part k n f) x (.ok y) c
  | part_no {k n f x c} : (c ≤ k ∨ ((∃ a, ahead b x = some a ∧ f a = true) ∧ c ≤ k + k * x.countP fun a => !b a)) →
      Takes b P (.part k n f) x .no c
  | nt {k i x r c} : Takes b P (P k i) x r c → Takes b P (.nt k i) x r (c + 1)
  | call {a x r c} : Takes b P a x r c → Takes b P (.call a) x r (c + 1)
  | skip {a x r c} : Takes b P a (x.dropWhile b) r c → Takes b P (.skip a) x r (c + 1)
  | may {a x r c} : Takes b P a x r c → Takes b P (.may a) x r c
  | may_late {a x y c} : Takes b P a x (.ok y) c → Takes b P (.may a) x (.late y) c
  | seq_ok {e f x y z c d} : Takes b P e x (.ok y) c → Takes b P f y (.ok z) d → Takes b P (.seq e f) x (.ok z) (c + d)
  | seq_no {e f x r c} : Takes b P e x r c → r.fails → Takes b P (.seq e f) x .no c
  | seq_no2 {e f x y r c d} : Takes b P e x (.ok y) c → Takes b P f y r d → r.fails → Takes b P (.seq e f) x .no (c + d)
  | alt_1 {e f x y c} : Takes b P e x (.ok y) c → Takes b P (.alt e f) x (.ok y) c
  | alt_2 {e f x r y c d} : Takes b P e x r c → r.fails → Takes b P f x (.ok y) d → Takes b P (.alt e f) x (.ok y) (c + d)
  | alt_no {e f x r s c d} : Takes b P e x r c → r.fails → Takes b P f x s d → s.fails → Takes b P (.alt e f) x .no (c + d)
  | cond_not {e f x r c} : Takes b P e x r c → r.fails → Takes b P (.cond e f) x (.ok x) c
  | cond_ok {e f x y z c d} : Takes b P e x (.ok y) c → Takes b P f y (.ok z) d → Takes b P (.cond e f) x (.ok z) (c + d)
  | cond_no {e f x y r c d} : Takes b P e x (.ok y) c → Takes b P f y r d → r.fails → Takes b P (.cond e f) x .no (c + d)
  | rep_lim {a m x} : Takes b P (.rep a m (some 0)) x (if m = 0 then .ok x else .no) 0
  | rep_stop {a m n x r z c} : n ≠ some 0 → Takes b P a x r c → r.Left b x z →
      Takes b P (.rep a m n) x (if m = 0 then .ok z else .no) c
  | rep_more {a m n x y r c d} : n ≠ some 0 → Takes b P a x (.ok y) c → Takes b P (.rep a (m - 1) (n.map (· - 1))) y r d →
      Takes b P (.rep a m n) x r (c + d)
  | list_stop {a s k m x r z c} : Takes b P a x r c → r.Left b x z →
      Takes b P (.list a s k m) x (if m = 0 then .ok z else .no) c
  | list_last {a s k m x y r z c d} : Takes b P a x (.ok y) c → Takes b P s y r d → r.Left b y z →
      Takes b P (.list a s k m) x (if m - k.toNat = 0 then .ok z else .no) (c + d)
  | list_more {a s k m x y z r c d f} : Takes b P a x (.ok y) c → Takes b P s y (.ok z) d →
      Takes b P (.list a s k (m - 1)) z r f → Takes b P (.list a s k m) x r (c + d + f)

variable {b : ι → Bool} {P : Bool → Nat → Plan ι} {N : Bool → Nat → Bool} {T : Bool → Nat → ι → Bool}
  {O : Bool → Nat → Option ι → Prop}

/-- The next item after blanks. -/
def look (b : ι → Bool) (x : List ι) : Option ι := (x.dropWhile b).head?

/-- The number of items that are no blanks. -/
def nb (b : ι → Bool) (x : List ι) : Nat := x.countP fun c => !b c

/-- Only blanks. -/
def Blank (b : ι → Bool) (t : List ι) : Prop := ∀ c ∈ t, b c = true

/-- The next item may begin `e`. -/
def Near (b : ι → Bool) (N : Bool → Nat → Bool) (T : Bool → Nat → ι → Bool) (e : Plan ι) (x : List ι) : Prop :=
  ∃ c, look b x = some c ∧ e.first N T c = true

theorem nb_append (t y : List ι) : nb b (t ++ y) = nb b t + nb b y := List.countP_append

theorem nb_blank {t : List ι} : nb b t = 0 ↔ Blank b t := by
  unfold nb Blank
  rw [List.countP_eq_zero]
  simp

theorem look_blank {t y : List ι} (h : Blank b t) : look b (t ++ y) = look b y := by
  induction t with
  | nil => rfl
  | cons c t ih =>
    have := h c (by simp)
    simp only [look, List.cons_append, List.dropWhile_cons, this, if_true]
    exact ih fun c hc => h c (by simp [hc])

theorem look_notBlank {t y : List ι} (h : ¬ Blank b t) : look b (t ++ y) = look b t := by
  induction t with
  | nil => exact absurd (fun c hc => by cases hc) h
  | cons c t ih =>
    cases hc : b c with
    | false => simp [look, hc]
    | true =>
      have : ¬ Blank b t := fun h' => h fun d hd => by
        rcases List.mem_cons.mp hd with rfl | hd
        · exact hc
        · exact h' d hd
      have := ih this
      simpa [look, hc] using this

theorem dropWhile_blank (x : List ι) : ∃ t, x = t ++ x.dropWhile b ∧ Blank b t :=
  ⟨x.takeWhile b, (List.takeWhile_append_dropWhile).symm, fun c hc => by
    exact List.all_eq_true.mp (List.all_takeWhile (l := x) (p := b)) c hc⟩

theorem nb_drop (x : List ι) : nb b (x.dropWhile b) = nb b x := by
  obtain ⟨t, h, hb⟩ := dropWhile_blank (b := b) x
  have : nb b x = nb b t + nb b (x.dropWhile b) := by rw [← nb_append, ← h]
  rw [nb_blank.mpr hb] at this
  omega

theorem look_drop (x : List ι) : look b (x.dropWhile b) = look b x := by
  obtain ⟨t, h, hb⟩ := dropWhile_blank (b := b) x
  have := look_blank (y := x.dropWhile b) hb
  rw [← h] at this
  exact this.symm

theorem near_drop {e : Plan ι} {x : List ι} : Near b N T e (x.dropWhile b) ↔ Near b N T e x := by
  simp only [Near, look_drop]

/-! ## What a success has consumed -/

/-- What was consumed before `y`. -/
def Ate (b : ι → Bool) (N : Bool → Nat → Bool) (T : Bool → Nat → ι → Bool) (e : Plan ι) (x y : List ι) : Prop :=
  ∃ t, x = t ++ y ∧ (Blank b t → e.nullable N = true) ∧ (¬ Blank b t → Near b N T e x)

theorem Ate.left {e : Plan ι} {x z : List ι} (h : e.nullable N = true) (hz : z = x ∨ z = x.dropWhile b) :
    Ate b N T e x z := by
  rcases hz with rfl | rfl
  · exact ⟨[], rfl, fun _ => h, fun hb => absurd (fun c hc => by cases hc) hb⟩
  · obtain ⟨t, ht, hb⟩ := dropWhile_blank (b := b) x
    exact ⟨t, ht, fun _ => h, fun hb' => absurd hb hb'⟩

theorem Ate.mono {e e' : Plan ι} {x y : List ι} (h : Ate b N T e x y) (h1 : e.nullable N = true → e'.nullable N = true)
    (h2 : ∀ c, e.first N T c = true → e'.first N T c = true) : Ate b N T e' x y := by
  obtain ⟨t, h, ha, hn⟩ := h
  exact ⟨t, h, fun hb => h1 (ha hb), fun hb => let ⟨c, hc, hf⟩ := hn hb; ⟨c, hc, h2 c hf⟩⟩

theorem Ate.seq {e f g : Plan ι} {x y z : List ι} (h : Ate b N T e x y) (h' : Ate b N T f y z)
    (hn : e.nullable N = true → f.nullable N = true → g.nullable N = true)
    (hf : ∀ c, e.first N T c = true ∨ (e.nullable N = true ∧ f.first N T c = true) → g.first N T c = true) :
    Ate b N T g x z := by
  obtain ⟨t, rfl, ha, hb⟩ := h
  obtain ⟨t', rfl, ha', hb'⟩ := h'
  refine ⟨t ++ t', by simp, fun h => ?_, fun h => ?_⟩
  · exact hn (ha fun c hc => h c (by simp [hc])) (ha' fun c hc => h c (by simp [hc]))
  · by_cases ht : Blank b t
    · have : ¬ Blank b t' := fun h' => h fun c hc => by
        rcases List.mem_append.mp hc with hc | hc
        · exact ht c hc
        · exact h' c hc
      obtain ⟨c, h1, h2⟩ := hb' this
      exact ⟨c, by rw [look_blank ht]; exact h1, hf c (.inr ⟨ha ht, h2⟩)⟩
    · obtain ⟨c, h1, h2⟩ := hb ht
      exact ⟨c, h1, hf c (.inl h2)⟩

/-- Where a call has stopped. -/
def End.Stopped : End ι → List ι → Prop
  | .ok y, z | .late y, z => z = y
  | .no, _ => False

theorem takes_ate (hN : ∀ k i, (P k i).nullable N = true → N k i = true)
    (hT : ∀ k i x, (P k i).first N T x = true → T k i x = true) (hC : ∀ k i, (P k i).Clear b)
    {e : Plan ι} {x : List ι} {r : End ι} {c : Nat} (h : Takes b P e x r c) (hc : e.Clear b) :
    ∀ y, r.Stopped y → Ate b N T e x y := by
  induction h with
  | eps => rintro _ rfl; exact Ate.left rfl (.inl rfl)
  | fail | leaf_no | part_no | seq_no | seq_no2 | alt_no | cond_no => rintro _ ⟨⟩
  | @leaf_ok e x y h =>
    rintro _ rfl
    obtain ⟨t, rfl, ht⟩ := ford_derives h
    cases t with
    | nil => exact ⟨[], rfl, fun _ => nullable_of (fun _ h => by cases h) ht, fun hb => absurd (fun c hc => by cases hc) hb⟩
    | cons a t =>
      have hf : e.begins a = true := first_of (fun _ h => by cases h)
        (fun _ _ h => by cases h) ⟨t, ht⟩
      have hb := hc a hf
      refine ⟨a :: t, rfl, fun h => ?_, fun _ => ⟨a, by simp [look, hb], hf⟩⟩
      have := h a (by simp)
      rw [hb] at this; cases this
  | @part_ok k n f x t y c h h1 h2 h3 =>
    rintro _ rfl
    subst h
    refine ⟨t, rfl, fun hb => h1 ?_, fun hb => ?_⟩
    · have := look_blank (y := []) hb
      rw [List.append_nil] at this
      exact this
    · cases ha : ahead b t with
      | none =>
        refine absurd (fun c hc => ?_) hb
        obtain ⟨u, hu, hbu⟩ := dropWhile_blank (b := b) t
        rw [show t.dropWhile b = [] from List.head?_eq_none_iff.mp ha, List.append_nil] at hu
        exact hbu c (hu ▸ hc)
      | some a => exact ⟨a, by rw [look_notBlank hb]; exact ha, h2 a ha⟩
  | nt _ ih => exact fun y hy => (ih (hC _ _) y hy).mono (hN _ _) fun c => hT _ _ c
  | call _ ih => exact fun y hy => ih hc y hy
  | @skip a x r c _ ih =>
    intro y hy
    obtain ⟨t, h, ha, hn⟩ := ih hc y hy
    obtain ⟨w, hw, hb⟩ := dropWhile_blank (b := b) x
    refine ⟨w ++ t, by rw [List.append_assoc, ← h, ← hw], fun h => ?_, fun h => ?_⟩
    · exact ha fun c hc => h c (by simp [hc])
    · refine near_drop.mp (hn fun ht => h fun c hc => ?_)
      rcases List.mem_append.mp hc with hc | hc
      · exact hb c hc
      · exact ht c hc
  | may _ ih => exact fun y hy => ih hc y hy
  | may_late _ ih => exact fun y hy => ih hc y hy
  | @seq_ok e f x y z c d _ _ ih1 ih2 =>
    rintro _ rfl
    exact (ih1 hc.1 y rfl).seq (ih2 hc.2 _ rfl) (by simp_all [nullable]) (by simp only [first]; simp)
  | alt_1 _ ih =>
    intro y hy
    exact (ih hc.1 y hy).mono (by simp_all [nullable]) (by simp only [first]; simp_all)
  | alt_2 _ _ _ _ ih =>
    intro y hy
    exact (ih hc.2 y hy).mono (by simp_all [nullable]) (by simp only [first]; simp_all)
  | cond_not => rintro _ rfl; exact Ate.left rfl (.inl rfl)
  | @cond_ok e f x y z c d _ _ ih1 ih2 =>
    rintro _ rfl
    exact (ih1 hc.1 y rfl).seq (ih2 hc.2 _ rfl) (by simp_all [nullable]) (by simp only [first]; simp)
  | rep_lim =>
    intro y hy
    split at hy
    · next h => subst h; cases hy; exact Ate.left (by simp [nullable]) (.inl rfl)
    · cases hy
  | @rep_stop a m n x r z c _ _ hz ih =>
    intro y hy
    split at hy
    · next h =>
      subst h; cases hy
      cases r with
      | ok => cases hz
      | no => exact Ate.left (by simp [nullable]) hz
      | late y => exact (ih hc z hz).mono (by simp [nullable]) fun c h => h
    · cases hy
  | @rep_more a m n x y r c d _ _ _ ih1 ih2 =>
    intro z hz
    refine (ih1 hc y rfl).seq (ih2 hc z hz) (fun h _ => by simp [nullable, h]) ?_
    simp only [first]
    rintro c (h | ⟨_, h⟩) <;> exact h
  | @list_stop a s k m x r z c _ hz ih =>
    intro y hy
    split at hy
    · next h =>
      subst h; cases hy
      cases r with
      | ok => cases hz
      | no => exact Ate.left (by simp [nullable]) hz
      | late y => exact (ih hc.1 z hz).mono (by simp [nullable]) fun c h => by simp [first, h]
    · cases hy
  | @list_last a s k m x y r z c d _ _ hz ih1 ih2 =>
    intro y' hy
    split at hy
    · next h =>
      cases hy
      cases r with
      | ok => cases hz
      | no =>
        have := ih1 hc.1 y rfl
        refine this.seq (f := .eps) (Ate.left rfl hz) (fun h _ => by simp [nullable, h]) ?_
        rintro c (h | ⟨_, h⟩)
        · simp [first, h]
        · cases h
      | late z' =>
        refine (ih1 hc.1 y rfl).seq (ih2 hc.2 z hz) (fun h _ => by simp [nullable, h]) ?_
        rintro c (h | ⟨h1, h2⟩)
        · simp [first, h]
        · simp [first, h1, h2]
    · cases hy
  | @list_more a s k m x y z r c d f _ _ _ ih1 ih2 ih3 =>
    intro w hw
    have h1 : Ate b N T (.seq a s) x z := (ih1 hc.1 y rfl).seq (ih2 hc.2 z rfl) (by simp_all [nullable])
      (by simp only [first]; simp)
    refine h1.seq (ih3 hc w hw) (fun h _ => ?_) ?_
    · simp only [nullable, Bool.and_eq_true] at h
      simp [nullable, h.1]
    · rintro c (h | ⟨h1, h2⟩)
      · exact h
      · exact h2

end Plan
end Neure
