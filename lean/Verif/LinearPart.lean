import Verif.LinearLink
import Verif.Locality
/-!
# Parts that are measured: runs of items with a condition
-/

namespace Neure

set_option linter.unusedSectionVars false

variable {ι β σ α : Type} [Item ι] {G : Rules ι β} {pol : Option (Pat ι β)} {b : ι → Bool}

/-- Like `Measured`, and failing is cheap. -/
def Meter (b : ι → Bool) (k : Nat) (n : Bool) (f : ι → Bool) (pre x : List ι) (j : Nat) :
    Except Error Span → Unit × Nat → Nat → Prop
  | .ok _, s, o' => ∃ t y, x = t ++ y ∧ o' = blen (pre ++ t) ∧ (ahead b t = none → n = true) ∧
        (∀ a, ahead b t = some a → f a = true) ∧ s.2 ≤ j + k + k * t.countP fun a => !b a
  | .error _, s, o' => o' = blen pre ∧ s.2 ≤ j + k

def Metered (G : Rules ι β) (pol : Option (Pat ι β)) (b : ι → Bool) (p : Pat ι β) (k : Nat) (n : Bool) (f : ι → Bool) : Prop :=
  ∀ fuel pre x j, WP (workParse G fuel pol (pre ++ x) p) (Meter b k n f pre x j) ((), j) (blen pre)

theorem Metered.measured {p : Pat ι β} {k : Nat} {n : Bool} {f : ι → Bool} (h : Metered G pol b p k n f) :
    Measured G pol b p k n f := by
  intro fuel pre x r c o' hr
  have := h fuel pre x 0 r _ _ hr
  cases r with
  | ok a => simpa [Meter] using this
  | error e => exact ⟨this.1, .inl (by simpa using this.2)⟩

theorem Meter.mono {k k' : Nat} {n n' : Bool} {f f' : ι → Bool} {pre x : List ι} {j j' : Nat} {r : Except Error Span}
    {s : Unit × Nat} {o' : Nat} (h : Meter b k n f pre x j r s o')
    (hk : k ≤ k') (hj : j + k ≤ j' + k') (hn : n = true → n' = true) (hf : ∀ a, f a = true → f' a = true) :
    Meter b k' n' f' pre x j' r s o' := by
  cases r with
  | ok a =>
    obtain ⟨t, y, h1, h2, h3, h4, h5⟩ := h
    refine ⟨t, y, h1, h2, fun h => hn (h3 h), fun a h => hf a (h4 a h), ?_⟩
    have := Nat.mul_le_mul_right (t.countP fun a => !b a) hk
    omega
  | error e => exact ⟨h.1, by have := h.2; omega⟩

/-- `p.or(q)` in a plain context. -/
theorem Metered.or {p q : Pat ι β} {k : Nat} {n : Bool} {f : ι → Bool} (hp : Metered G none b p k n f)
    (hq : Metered G none b q k n f) : Metered G none b (.or p q) (2 * k + 1) n f := by
  intro fuel pre x j
  cases fuel with
  | zero => rintro _ _ _ ⟨⟩
  | succ m =>
    have key : WP (Imp.or (workMat (σ := Unit) G m none (pre ++ x)) p q) (Meter b (2 * k + 1) n f pre x j) ((), j + 1) (blen pre) := by
      dsimp +zetaHave only [Imp.or]
      refine WP.bind_ (WP.offset_ (WP.bind_ ((hp m pre x (j + 1)).mono fun r s o' hr => ?_)))
      cases r with
      | ok a =>
        refine WP.bind_ (WP.pure_ (WP.inspectErr_ (fun a' ha => ?_) (fun e he => by cases he)))
        exact hr.mono (by omega) (by omega) id fun _ => id
      | error e =>
        obtain ⟨rfl, hc⟩ := hr
        refine WP.bind_ (WP.setOffset_ (WP.bind_ ((hq m pre x s.2).mono fun r s' o' hr' => ?_)))
        have := hr'.mono (k' := 2 * k + 1) (j' := j) (by omega) (by omega) id fun _ => id
        refine WP.inspectErr_ (fun a' ha => this) (fun e he => ?_)
        subst he
        exact ⟨rfl, this.2⟩
    exact key

variable {d : List ι} {mt : List ι → Pat ι β → M (σ × Nat) (Except Error Span)} {w : Nat}

/-- Testing one item with a pattern as the condition: no error, and nothing moves. -/
theorem test_regex {q : Pat ι β} (hq : ∀ d' s, WP (mt d' q) (fun _ s' _ => s'.2 ≤ s.2 + w) s 0) (u : Neu ι)
    (pre mid rest : List ι) (x : ι) (g : Guard) (s : σ × Nat) :
    GWP (Imp.test mt (pre ++ (mid ++ rest)) u (.regex q) (blen mid, x))
      (fun r g' s' o' => g' = g ∧ o' = blen pre ∧ s'.2 ≤ s.2 + w ∧ ∃ v, r = .ok v ∧ (v = true → u.isMatch x = true)) g s (blen pre) := by
  unfold Imp.test
  split
  · next hu =>
    refine GWP.bind_ (GWP.call_ ?_)
    dsimp +zetaHave only [Imp.check]
    refine WP.function_ (GWP.bind_ (GWP.call_ (WP.offset_ ⟨?_, by wp⟩)))
    rintro _ ⟨⟩
    have ho : origAt (pre ++ (mid ++ rest)) (blen pre + blen mid) = .ok rest := by
      rw [origAt_pre]
      have := origAt_pre mid rest 0
      rw [Nat.add_zero] at this
      rw [this, origAt_ok, dropB_zero]
    refine GWP.bind_ (GWP.call_ ?_)
    intro r s' o' hr
    simp only [peekCtx, ho] at hr
    cases hr
    refine ⟨?_, by wp⟩
    rintro _ ⟨⟩
    refine GWP.bind_ (GWP.try__ ⟨?_, by wp⟩)
    rintro _ ⟨⟩
    refine GWP.bind_ (GWP.call_ (WP.onClone_ ((hq rest s).mono fun r s' _ h => ⟨?_, by wp⟩)))
    rintro _ ⟨⟩
    refine GWP.pure_ ⟨?_, by wp⟩
    rintro _ ⟨⟩
    exact GWP.try__ ⟨rfl, rfl, h, _, rfl, fun _ => hu⟩
  · exact GWP.pure_ ⟨rfl, rfl, by omega, _, rfl, nofun⟩

theorem scan_regex {q : Pat ι β} (hq : ∀ d' s, WP (mt d' q) (fun _ s' _ => s'.2 ≤ s.2 + w) s 0) (u : Neu ι)
    (pre : List ι) : ∀ (rest mid : List ι) (beg : Option Nat) (g : Guard) (s : σ × Nat),
    GWP (Imp.scanAll mt (pre ++ (mid ++ rest)) u (.regex q) (indices (blen mid) rest) beg)
      (fun r g' s' o' => g' = g ∧ o' = blen pre ∧ ∃ t y, rest = t ++ y ∧ (∀ a ∈ t, u.isMatch a = true) ∧
        r = .ok (if t = [] then beg else beg.or (some (blen mid)), y.head?.map fun _ => blen mid + blen t) ∧
        s'.2 ≤ s.2 + (t.length + 1) * w) g s (blen pre)
  | [], mid, beg, g, s => GWP.pure_ ⟨rfl, rfl, [], [], rfl, by simp, by simp, by omega⟩
  | x :: rest, mid, beg, g, s => by
    simp only [indices]
    unfold Imp.scanAll
    refine GWP.bind_ ((test_regex hq u pre mid (x :: rest) x g s).mono fun r g' s' o' hr => ⟨fun v hv => ?_, fun e he => ?_⟩)
    · obtain ⟨e1, rfl, h1, v', rfl, h2⟩ := hr
      subst e1
      cases hv
      cases v with
      | false => exact GWP.pure_ ⟨rfl, rfl, [], x :: rest, rfl, by simp, by simp, by simpa using h1⟩
      | true =>
        have ih := scan_regex hq u pre rest (mid ++ [x]) (if beg.isNone then some (blen mid) else beg) g' s'
        rw [blen_append, List.append_assoc] at ih
        refine ih.mono fun r g2 s2 o2 ⟨e1, e2, t, y, h3, h4, h5, h6⟩ => ⟨e1, e2, x :: t, y, by rw [h3]; rfl, ?_, ?_, ?_⟩
        · intro a ha
          rcases List.mem_cons.mp ha with rfl | ha
          · exact h2 rfl
          · exact h4 a ha
        · rw [h5]
          simp only [blen_append, blen_cons, blen_nil, Nat.add_zero, Nat.add_assoc, reduceCtorEq, if_false]
          cases beg <;> simp
        · simp only [List.length_cons, Nat.add_mul, Nat.one_mul] at h6 ⊢; omega
    · obtain ⟨_, _, _, v', h, _⟩ := hr
      rw [h] at he; cases he

/-- Items tested one by one, each with a pattern as the condition: what is consumed pays. -/
theorem Metered.many1 {q : Pat ι β} {u : Neu ι} (hq : ∀ n d' (s : Unit × Nat), WP (workMat G n pol d' q) (fun _ s' _ => s'.2 ≤ s.2 + w) s 0)
    (hu : ∀ a, u.isMatch a = true → b a = false) : Metered G pol b (.many1 u (.regex q)) (w + 1) false u.isMatch := by
  intro fuel pre x j
  cases fuel with
  | zero => rintro _ _ _ ⟨⟩
  | succ m =>
    have key : WP (Imp.many1 (workMat (σ := Unit) G m pol) (pre ++ x) u (.regex q)) (Meter b (w + 1) false u.isMatch pre x j)
        ((), j + 1) (blen pre) := by
      have hpk : peek (pre ++ x) (blen pre) = .ok (indices 0 x) := by
        have := peek_pre pre x 0
        rw [Nat.add_zero] at this
        rw [this, peek_ok]
        exact ⟨x, dropB_zero _, rfl⟩
      dsimp +zetaHave only [Imp.many1]
      refine WP.function_ (GWP.bind_ (GWP.call_ ?_))
      intro r s' o' hr
      simp only [peekCtx, hpk] at hr
      cases hr
      refine ⟨?_, by wp⟩
      rintro _ ⟨⟩
      refine GWP.bind_ (GWP.try__ ⟨?_, by wp⟩)
      rintro _ ⟨⟩
      refine GWP.bind_ (GWP.call_ ?_)
      intro r s' o' hr
      have hrem : remaining (σ := Unit × Nat) (pre ++ x) ((), j + 1) (blen pre) = some (.done (blen x) ((), j + 1) (blen pre)) := by
        show (if blen pre ≤ blen (pre ++ x) then pure (blen (pre ++ x) - blen pre) else panic_ : M (Unit × Nat) Nat) _ _ = _
        rw [if_pos (by simp), blen_append, Nat.add_sub_cancel_left]; rfl
      rw [hrem] at hr
      cases hr
      refine ⟨?_, by wp⟩
      rintro _ ⟨⟩
      refine GWP.bind_ ((scan_regex (hq m) u pre x [] none _ _).mono fun r g s o' ⟨e1, e2, t, y, h1, h2, h3, h4⟩ => ?_)
      subst e1 e2 h1 h3
      refine ⟨?_, by wp⟩
      rintro _ ⟨⟩
      cases t with
      | nil =>
        refine GWP.try__ ⟨rfl, ?_⟩
        simp only [List.length_nil] at h4; omega
      | cons a t =>
        refine GWP.bind_ (GWP.call_ ?_)
        have hlen : calcLen (σ := Unit × Nat) (some 0) (y.head?.map fun _ => 0 + blen (a :: t)) (blen (a :: t ++ y)) s (blen pre) =
            some (.done (blen (a :: t)) s (blen pre)) := by
          unfold calcLen calcLength
          cases y with
          | nil => simp; rfl
          | cons c y => simp; rfl
        intro r s' o' hr
        rw [show blen ([] : List ι) = 0 from rfl] at hr
        have hr := hlen.symm.trans hr
        cases hr
        refine ⟨?_, by wp⟩
        rintro _ ⟨⟩
        refine GWP.call_ ?_
        unfold spanInc
        refine WP.bind_ (WP.offset_ (WP.bind_ (WP.setOffset_ (WP.pure_ ?_))))
        have hb : ∀ c ∈ a :: t, b c = false := fun c hc => hu c (h2 c hc)
        have hah : ahead b (a :: t) = some a := by simp [ahead, hb a]
        refine ⟨a :: t, y, rfl, by simp, by simp [hah], ?_, ?_⟩
        · intro c hc
          rw [hah] at hc; cases hc
          exact h2 a (by simp)
        · have : (a :: t).countP (fun a => !b a) = (a :: t).length := by
            rw [List.countP_eq_length]
            intro c hc; simp [hb c hc]
          rw [this]
          simp only [Nat.add_mul, Nat.one_mul, Nat.mul_comm w] at h4 ⊢
          omega
    exact key

/-- Two items without a condition. -/
theorem Metered.thenU {u v : Neu ι} (hu : ∀ a, u.isMatch a = true → b a = false) :
    Metered G pol b (.thenU u v .empty) 1 false u.isMatch := by
  intro fuel pre x j
  cases fuel with
  | zero => rintro _ _ _ ⟨⟩
  | succ m =>
    have key : WP (Imp.thenU (workMat (σ := Unit) G m pol) (pre ++ x) u v .empty) (Meter b 1 false u.isMatch pre x j)
        ((), j + 1) (blen pre) := by
      have hpk : peek (pre ++ x) (blen pre) = .ok (indices 0 x) := by
        have := peek_pre pre x 0
        rw [Nat.add_zero] at this
        rw [this, peek_ok]
        exact ⟨x, dropB_zero _, rfl⟩
      dsimp +zetaHave only [Imp.thenU]
      refine WP.function_ (GWP.bind_ (GWP.call_ ?_))
      intro r s' o' hr
      simp only [peekCtx, hpk] at hr
      cases hr
      refine ⟨?_, by wp⟩
      rintro _ ⟨⟩
      refine GWP.bind_ (GWP.try__ ⟨?_, by wp⟩)
      rintro _ ⟨⟩
      refine GWP.bind_ (GWP.call_ ?_)
      intro r s' o' hr
      have hrem : remaining (σ := Unit × Nat) (pre ++ x) ((), j + 1) (blen pre) = some (.done (blen x) ((), j + 1) (blen pre)) := by
        show (if blen pre ≤ blen (pre ++ x) then pure (blen (pre ++ x) - blen pre) else panic_ : M (Unit × Nat) Nat) _ _ = _
        rw [if_pos (by simp), blen_append, Nat.add_sub_cancel_left]; rfl
      rw [hrem] at hr
      cases hr
      refine ⟨?_, by wp⟩
      rintro _ ⟨⟩
      have test : ∀ (u : Neu ι) p g s o, Imp.test (workMat (σ := Unit) G m pol) (pre ++ x) u .empty p g s o =
          some (.done (.ok (u.isMatch p.2)) g s o) := by
        intro u p g s o
        unfold Imp.test
        cases h : u.isMatch p.2 <;> rfl
      have bad : Meter b 1 false u.isMatch pre x j (.error .neureThen) ((), j + 1) (blen pre) := ⟨rfl, by simp⟩
      split
      · match x with
        | [] => exact GWP.try__ bad
        | [a] => exact GWP.try__ bad
        | a :: c :: y =>
          refine GWP.bind_ ?_
          intro r g s o hr
          rw [test] at hr
          cases hr
          refine ⟨?_, by wp⟩
          rintro _ ⟨⟩
          split
          · next hua =>
            refine GWP.bind_ ?_
            intro r g s o hr
            rw [test] at hr
            cases hr
            refine ⟨?_, by wp⟩
            rintro _ ⟨⟩
            split
            · refine GWP.bind_ (GWP.call_ ?_)
              have hlen : calcLen (σ := Unit × Nat) (some 0) ((indices (0 + Item.size a + Item.size c) y).head?.map (·.1)) (blen (a :: c :: y))
                  ((), j + 1) (blen pre) = some (.done (blen [a, c]) ((), j + 1) (blen pre)) := by
                unfold calcLen calcLength
                cases y with
                | nil => simp; rfl
                | cons e y => simp [indices]; rfl
              intro r s' o' hr
              have hr := hlen.symm.trans hr
              cases hr
              refine ⟨?_, by wp⟩
              rintro _ ⟨⟩
              refine GWP.call_ ?_
              unfold spanInc
              refine WP.bind_ (WP.offset_ (WP.bind_ (WP.setOffset_ (WP.pure_ ?_))))
              have hah : ahead b [a, c] = some a := by simp [ahead, hu a hua]
              refine ⟨[a, c], y, rfl, by simp, by simp [hah], ?_, by simp⟩
              intro c hc
              rw [hah] at hc; cases hc
              exact hua
            · exact GWP.try__ bad
          · exact GWP.try__ bad
      · exact GWP.try__ bad
    exact key

end Neure
