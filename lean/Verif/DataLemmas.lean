import Verif.Spec
/-!
# Lemmas about input data, boundaries and scanning
-/

namespace Neure

set_option linter.unusedSectionVars false

variable {ι β : Type} [Item ι]

@[simp] theorem blen_nil : blen ([] : List ι) = 0 := rfl
@[simp] theorem blen_cons (x : ι) (l : List ι) : blen (x :: l) = Item.size x + blen l := rfl
@[simp] theorem blen_append (a b : List ι) : blen (a ++ b) = blen a + blen b := by
  induction a with
  | nil => simp
  | cons x a ih => simp [ih, Nat.add_assoc]

theorem blen_eq_zero {l : List ι} : blen l = 0 ↔ l = [] := by
  cases l with
  | nil => simp
  | cons x l => have := Item.size_pos x; simp; omega

@[simp] theorem dropB_zero (l : List ι) : dropB l 0 = some l := by cases l <;> rfl
@[simp] theorem takeB_zero (l : List ι) : takeB l 0 = some [] := by cases l <;> rfl

theorem dropB_append (a b : List ι) : dropB (a ++ b) (blen a) = some b := by
  induction a with
  | nil => simp
  | cons x a ih =>
    have hp := Item.size_pos x
    obtain ⟨k, hk⟩ : ∃ k, Item.size x + blen a = k + 1 := ⟨Item.size x + blen a - 1, by omega⟩
    simp only [List.cons_append, blen_cons, hk, dropB]
    rw [if_pos (by omega), show k + 1 - Item.size x = blen a by omega, ih]

theorem takeB_append (a b : List ι) : takeB (a ++ b) (blen a) = some a := by
  induction a with
  | nil => simp
  | cons x a ih =>
    have hp := Item.size_pos x
    obtain ⟨k, hk⟩ : ∃ k, Item.size x + blen a = k + 1 := ⟨Item.size x + blen a - 1, by omega⟩
    simp only [List.cons_append, blen_cons, hk, takeB]
    rw [if_pos (by omega), show k + 1 - Item.size x = blen a by omega, ih]; rfl

/-- `dat.get(o..) = Some(l)` iff the data splits as `pre ++ l` with `pre` of
`o` bytes. -/
theorem dropB_eq_some {d l : List ι} {o : Nat} :
    dropB d o = some l ↔ ∃ pre, d = pre ++ l ∧ blen pre = o := by
  constructor
  · induction d generalizing o with
    | nil =>
      intro h
      cases o with
      | zero => simp at h; subst h; exact ⟨[], rfl, rfl⟩
      | succ o => simp [dropB] at h
    | cons x d ih =>
      intro h
      cases o with
      | zero => simp at h; subst h; exact ⟨[], rfl, rfl⟩
      | succ o =>
        simp only [dropB] at h
        split at h
        · obtain ⟨pre, hd, hl⟩ := ih h
          exact ⟨x :: pre, by simp [hd], by simp; omega⟩
        · cases h
  · rintro ⟨pre, rfl, rfl⟩; exact dropB_append _ _

theorem takeB_eq_some {d r : List ι} {n : Nat} :
    takeB d n = some r ↔ ∃ post, d = r ++ post ∧ blen r = n := by
  constructor
  · induction d generalizing n r with
    | nil =>
      intro h
      cases n with
      | zero => simp at h; subst h; exact ⟨[], rfl, rfl⟩
      | succ n => simp [takeB] at h
    | cons x d ih =>
      intro h
      cases n with
      | zero => simp at h; subst h; exact ⟨x :: d, rfl, rfl⟩
      | succ n =>
        simp only [takeB] at h
        split at h
        · cases ht : takeB d (n + 1 - Item.size x) with
          | none => simp [ht] at h
          | some r' =>
            simp [ht] at h; subst h
            obtain ⟨post, hd, hl⟩ := ih ht
            exact ⟨post, by simp [hd], by simp; omega⟩
        · cases h
  · rintro ⟨post, rfl, rfl⟩; exact takeB_append _ _

theorem valid_iff_dropB {d : List ι} {o : Nat} : Valid d o ↔ ∃ l, dropB d o = some l := by
  simp only [dropB_eq_some]
  constructor
  · rintro ⟨pre, post, h1, h2⟩; exact ⟨post, pre, h1, h2⟩
  · rintro ⟨post, pre, h1, h2⟩; exact ⟨pre, post, h1, h2⟩

theorem Valid.le {d : List ι} {o : Nat} (h : Valid d o) : o ≤ blen d := by
  obtain ⟨pre, post, rfl, rfl⟩ := h; simp

theorem valid_zero (d : List ι) : Valid d 0 := ⟨[], d, rfl, rfl⟩
theorem valid_len (d : List ι) : Valid d (blen d) := ⟨d, [], by simp, rfl⟩

theorem dropB_len {d l : List ι} {o : Nat} (h : dropB d o = some l) : o + blen l = blen d := by
  obtain ⟨pre, rfl, rfl⟩ := dropB_eq_some.mp h; simp

theorem dropB_add {d l : List ι} {o k : Nat} (h : dropB d o = some l) :
    dropB d (o + k) = dropB l k := by
  obtain ⟨pre, rfl, rfl⟩ := dropB_eq_some.mp h
  clear h
  induction pre with
  | nil => simp
  | cons x pre ih =>
    have hp := Item.size_pos x
    obtain ⟨j, hj⟩ : ∃ j, Item.size x + blen pre + k = j + 1 :=
      ⟨Item.size x + blen pre + k - 1, by omega⟩
    simp only [List.cons_append, blen_cons, hj, dropB]
    rw [if_pos (by omega), show j + 1 - Item.size x = blen pre + k by omega, ih]

theorem Valid.add {d run rest : List ι} {o : Nat} (h : dropB d o = some (run ++ rest)) :
    Valid d (o + blen run) := by
  rw [valid_iff_dropB, dropB_add h]; exact ⟨rest, dropB_append _ _⟩

/-- If all items have size 1 every in-bounds offset is valid. -/
theorem valid_of_bytes (hb : ∀ x : ι, Item.size x = 1) {d : List ι} {o : Nat} (h : o ≤ blen d) :
    Valid d o := by
  induction d generalizing o with
  | nil => simp at h; subst h; exact valid_zero _
  | cons x d ih =>
    cases o with
    | zero => exact valid_zero _
    | succ o =>
      have : o ≤ blen d := by simp [hb] at h; omega
      obtain ⟨pre, post, h1, h2⟩ := ih this
      exact ⟨x :: pre, post, by simp [h1], by simp [hb]; omega⟩

theorem origAt_ok {d l : List ι} {o : Nat} : origAt d o = .ok l ↔ dropB d o = some l := by
  unfold origAt
  split
  · next h =>
    simp at h
    constructor
    · intro h'; cases h'
    · intro h'; have := dropB_len h'; omega
  · split
    · next l' h => simp [h]
    · next h => simp [h]

theorem origAt_panic {d : List ι} {o : Nat} (h : origAt d o = .panic) : blen d < o := by
  unfold origAt at h
  split at h
  · next h' => simp at h'; exact h'.2
  · split at h <;> cases h

theorem peek_ok {d : List ι} {o : Nat} {it : List (Nat × ι)} :
    peek d o = .ok it ↔ ∃ l, dropB d o = some l ∧ it = indices 0 l := by
  unfold peek
  cases h : origAt d o with
  | ok l => rw [origAt_ok] at h; simp [h, eq_comm]
  | err e =>
    simp only [reduceCtorEq, false_iff, not_exists, not_and]
    intro l hl; rw [← origAt_ok] at hl; rw [hl] at h; cases h
  | panic =>
    simp only [reduceCtorEq, false_iff, not_exists, not_and]
    intro l hl; rw [← origAt_ok] at hl; rw [hl] at h; cases h

theorem peek_panic {d : List ι} {o : Nat} (h : peek d o = .panic) : blen d < o := by
  unfold peek at h
  cases h' : origAt d o <;> rw [h'] at h <;> simp at h
  exact origAt_panic h'

theorem origSub_ok {d r : List ι} {o n : Nat} :
    origSub d o n = .ok r ↔ ∃ pre post, d = pre ++ r ++ post ∧ blen pre = o ∧ blen r = n := by
  unfold origSub
  constructor
  · intro h
    split at h
    · cases h
    · next l hl =>
      split at h
      · cases h
      · next r' hr =>
        cases h
        obtain ⟨pre, h1, h2⟩ := dropB_eq_some.mp hl
        obtain ⟨post, h3, h4⟩ := takeB_eq_some.mp hr
        exact ⟨pre, post, by simp [h1, h3], h2, h4⟩
  · rintro ⟨pre, post, rfl, rfl, rfl⟩
    rw [List.append_assoc, dropB_append]
    simp only
    rw [takeB_append]

/-- A region between two valid positions can be sliced out. -/
theorem origSub_of_valid {d : List ι} {o n : Nat} (h1 : Valid d o) (h2 : Valid d (o + n)) :
    ∃ r, origSub d o n = .ok r ∧ blen r = n := by
  obtain ⟨pre, post, rfl, rfl⟩ := h1
  rw [valid_iff_dropB, dropB_add (dropB_append _ _)] at h2
  obtain ⟨l, hl⟩ := h2
  obtain ⟨r, h3, h4⟩ := dropB_eq_some.mp hl
  exact ⟨r, origSub_ok.mpr ⟨pre, l, by simp [h3], rfl, h4⟩, h4⟩

/-! ### Scanning -/

@[simp] theorem indices_nil (i : Nat) : indices i ([] : List ι) = [] := rfl
@[simp] theorem indices_cons (i : Nat) (x : ι) (l : List ι) :
    indices i (x :: l) = (i, x) :: indices (i + Item.size x) l := rfl

theorem indices_append (i : Nat) (a b : List ι) :
    indices i (a ++ b) = indices i a ++ indices (i + blen a) b := by
  induction a generalizing i with
  | nil => simp
  | cons x a ih => simp [ih, Nat.add_assoc]

theorem indices_head (i : Nat) (l : List ι) :
    (indices i l).head?.map (·.1) = if l = [] then none else some i := by
  cases l <;> simp

/-- What a scan over `run ++ rest` that accepted `run` leaves behind. -/
structure ScanPost (test : Nat × ι → Option (Out Bool)) (more : Nat → Bool) (cnt : Nat)
    (beg : Option Nat) (i : Nat) (l : List ι) (s : Scan ι) (run rest : List ι) : Prop where
  split : l = run ++ rest
  cnt_eq : s.cnt = cnt + run.length
  acc : ∀ pr ∈ indices i run, test pr = some (.ok true)
  beg_eq : s.beg = beg.or (if run = [] then none else some i)
  next : (s.stop.or (s.rest.head?.map (·.1))) = if rest = [] then none else some (i + blen run)
  more_all : ∀ k, k < run.length → more (cnt + k) = true
  why : rest = [] ∨ more s.cnt = false ∨
    ∃ x tl, rest = x :: tl ∧ test (i + blen run, x) = some (.ok false)
  stop_eq : (∀ k, more k = true) → s.stop = if rest = [] then none else some (i + blen run)

theorem scan_ok {test : Nat × ι → Option (Out Bool)} {more : Nat → Bool} {cnt : Nat}
    {beg : Option Nat} {i : Nat} {l : List ι} {s : Scan ι}
    (h : scan test more cnt beg (indices i l) = some (.ok s)) :
    ∃ run rest, ScanPost test more cnt beg i l s run rest := by
  induction l generalizing cnt beg i with
  | nil =>
    simp only [indices_nil, scan, Option.some.injEq, Out.ok.injEq] at h
    subst h
    exact ⟨[], [], by simp, by simp, by simp, by simp, by simp, by simp, by simp, by simp⟩
  | cons x l ih =>
    simp only [indices_cons, scan] at h
    split at h
    · next hm =>
      split at h
      · cases h
      · cases h
      · cases h
      · next ht =>
        obtain ⟨run, rest, hp⟩ := ih h
        refine ⟨x :: run, rest, by simp [hp.split], ?_, ?_, ?_, ?_, ?_, ?_, ?_⟩
        · rw [hp.cnt_eq]; simp; omega
        · intro pr hpr
          simp at hpr
          rcases hpr with rfl | hpr
          · exact ht
          · exact hp.acc pr hpr
        · rw [hp.beg_eq]; cases beg <;> simp
        · rw [hp.next]; simp [Nat.add_assoc]
        · intro k hk
          cases k with
          | zero => simpa using hm
          | succ k =>
            have := hp.more_all k (by simpa using hk)
            rw [← this]; congr 1; omega
        · rcases hp.why with h1 | h1 | ⟨y, tl, h1, h2⟩
          · exact .inl h1
          · exact .inr (.inl h1)
          · exact .inr (.inr ⟨y, tl, h1, by simpa [Nat.add_assoc] using h2⟩)
        · intro hall; rw [hp.stop_eq hall]; simp [Nat.add_assoc]
      · next ht =>
        simp only [Option.some.injEq, Out.ok.injEq] at h
        subst h
        exact ⟨[], x :: l, by simp, by simp, by simp, by simp, by simp, by simp,
          .inr (.inr ⟨x, l, rfl, by simpa using ht⟩), by simp⟩
    · next hm =>
      simp only [Option.some.injEq, Out.ok.injEq] at h
      subst h
      refine ⟨[], x :: l, by simp, by simp, by simp, by simp, by simp, by simp,
          .inr (.inl (by simpa using hm)), ?_⟩
      intro hall; exact absurd (hall cnt) hm

theorem scan_err_panic {test : Nat × ι → Option (Out Bool)} {more : Nat → Bool} {cnt : Nat}
    {beg : Option Nat} {it : List (Nat × ι)}
    (h : scan test more cnt beg it = some .panic) : ∃ pr ∈ it, test pr = some .panic := by
  induction it generalizing cnt beg with
  | nil => simp [scan] at h
  | cons pr it ih =>
    simp only [scan] at h
    split at h
    · split at h
      · cases h
      · next ht => exact ⟨pr, by simp, ht⟩
      · cases h
      · obtain ⟨q, hq, ht⟩ := ih h; exact ⟨q, by simp [hq], ht⟩
      · cases h
    · cases h

end Neure
