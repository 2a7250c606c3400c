import Verif.MachineSpec
import Verif.Inv
import Verif.Work
/-!
# The evaluator of a build against the evaluator on natural numbers
-/

namespace Neure

set_option linter.unusedSectionVars false
set_option linter.unusedSimpArgs false

variable {ι β σ α : Type} [Item ι] {b : Build} {d : List ι}

/-! ## `usize` operations -/

theorem Build.add_fits {x y : Nat} (h : x + y < wordSize) : b.add x y = some (x + y) := by
  simp [Build.add, h]

theorem Build.sub_fits {x y : Nat} (h : y ≤ x) : b.sub x y = some (x - y) := by
  simp [Build.sub, h]

theorem Build.mul_fits {x y : Nat} (h : x * y < wordSize) : b.mul x y = some (x * y) := by
  simp [Build.mul, h]

theorem wordSize_eq : wordSize = 18446744073709551616 := by decide
theorem isizeMax_eq : isizeMax = 9223372036854775807 := by decide

theorem addAssignM_some {s t s' : Span} (_ : s.beg + s.len ≤ isizeMax) (ht : t.beg + t.len ≤ isizeMax)
    (h : s.addAssign t = some s') :
    s.addAssignM b t = some s' ∧ s'.beg = s.beg ∧ s'.beg + s'.len = t.beg + t.len := by
  have hw := wordSize_eq
  have hi := isizeMax_eq
  unfold Span.addAssign at h
  split at h
  · next hc =>
    obtain ⟨h1, h2⟩ := hc
    cases h
    refine ⟨?_, rfl, by simp only; omega⟩
    unfold Span.addAssignM
    rw [if_neg (by simp; intro _; omega), Build.add_fits (by omega), Option.bind_some,
      Build.add_fits (by omega), Option.bind_some, Build.sub_fits (by omega), Option.bind_some,
      Build.add_fits (by omega)]
    rfl
  · cases h

theorem addAssignM_none {s t : Span} (hs : s.beg + s.len ≤ isizeMax) (_ : t.beg + t.len ≤ isizeMax)
    (h : s.addAssign t = none) : s.addAssignM .dev t = none := by
  have hw := wordSize_eq
  have hi := isizeMax_eq
  unfold Span.addAssign at h
  split at h
  · cases h
  · next hc =>
    unfold Span.addAssignM
    split
    · rfl
    · next hd =>
      simp [Build.dev] at hd
      have hd' : ¬ (s.beg + s.len ≤ t.len + t.beg) := fun hh => hc ⟨hd, hh⟩
      rw [Build.add_fits (by omega), Option.bind_some, Build.add_fits (by omega), Option.bind_some]
      simp [Build.sub, hd', Build.dev]

/-! ## Agreement -/

/-- What is proved of every attempt: when the evaluator on natural numbers finishes, the
evaluator of the build returns the same, within the text; it panics where the other
does if the build has all the checks. -/
def SameOn (b : Build) (d : List ι) (o : Nat) (x y : Option (Res Span)) : Prop :=
  match x with
  | none => True
  | some .panic => b = .dev → y = some .panic
  | some r => y = some r ∧ Within d o r

/-- The same for steps that do not move. -/
def SameOnO (b : Build) (P : α → Prop) (x y : Option (Out α)) : Prop :=
  match x with
  | none => True
  | some .panic => b = .dev → y = some .panic
  | some (.ok a) => y = some (.ok a) ∧ P a
  | some (.err e) => y = some (.err e)

theorem Within.mono {o o1 : Nat} (h : o1 ≤ o) {r : Res Span} (hr : Within d o r) : Within d o1 r := by
  cases r <;> simp only [Within] at hr ⊢ <;> omega

theorem SameOn.mono {o o1 : Nat} (h : o1 ≤ o) {x y : Option (Res Span)} (hr : SameOn b d o x y) :
    SameOn b d o1 x y := by
  cases x with
  | none => trivial
  | some r =>
    cases r with
    | panic => exact hr
    | ok s o' => exact ⟨hr.1, hr.2.mono h⟩
    | err e o' => exact ⟨hr.1, hr.2.mono h⟩

theorem SameOn.ok {o o' : Nat} {s : Span} (h : Within d o (.ok s o')) :
    SameOn b d o (some (.ok s o')) (some (.ok s o')) := ⟨rfl, h⟩

theorem SameOn.err {o o' : Nat} {e : Error} (h : o ≤ o') (h' : o' ≤ blen d) :
    SameOn b d o (some (.err e o')) (some (.err e o')) := ⟨rfl, h, h'⟩

theorem agree_caseR {o o1 : Nat} {x y : Option (Res Span)} {k k' : Span → Nat → Option (Res Span)}
    {ke ke' : Error → Nat → Option (Res Span)} (hx : SameOn b d o1 x y)
    (hk : ∀ s o', x = some (.ok s o') → Within d o1 (.ok s o') → SameOn b d o (k s o') (k' s o'))
    (he : ∀ e o', Within d o1 (.err e o') → SameOn b d o (ke e o') (ke' e o')) :
    SameOn b d o (caseR x k ke) (caseR y k' ke') := by
  cases x with
  | none => trivial
  | some r =>
    cases r with
    | panic => intro hb; rw [hx hb]; rfl
    | ok s o' => rw [hx.1]; exact hk s o' rfl hx.2
    | err e o' => rw [hx.1]; exact he e o' hx.2

theorem agree_caseO {o : Nat} {P : α → Prop} {x y : Option (Out α)} {k k' : α → Option (Res Span)}
    {ke ke' : Error → Option (Res Span)} (hx : SameOnO b P x y)
    (hk : ∀ a, P a → SameOn b d o (k a) (k' a)) (he : ∀ e, SameOn b d o (ke e) (ke' e)) :
    SameOn b d o (caseO x k ke) (caseO y k' ke') := by
  cases x with
  | none => trivial
  | some r =>
    cases r with
    | panic => intro hb; rw [hx hb]; rfl
    | ok a => rw [hx.1]; exact hk a hx.2
    | err e => rw [show y = some (.err e) from hx]; exact he e

/-- Merging spans. -/
theorem agree_add {o : Nat} {s t : Span} {k k' : Span → Option (Res Span)} (hd : blen d ≤ isizeMax)
    (hs : s.beg + s.len ≤ blen d) (ht : t.beg + t.len ≤ blen d)
    (hk : ∀ s', s.addAssign t = some s' → s'.beg = s.beg → s'.beg + s'.len = t.beg + t.len →
      SameOn b d o (k s') (k' s')) :
    SameOn b d o (addK s t k) (addM b s t k') := by
  unfold addK addM
  cases h : s.addAssign t with
  | none =>
    intro hb
    subst hb
    rw [addAssignM_none (by omega) (by omega) h]
  | some s' =>
    obtain ⟨h1, h2, h3⟩ := addAssignM_some (b := b) (by omega) (by omega) h
    rw [h1]
    exact hk s' h h2 h3

/-! ## Access to the text -/

theorem takeB_all (l : List ι) : takeB l (blen l) = some l := by
  simpa using takeB_append l []

theorem origSubM_eq {o n : Nat} (h : o + n < wordSize) : origSubM b d o n = origSub d o n := by
  unfold origSubM origSub getRange
  rw [Build.add_fits h]
  simp only [Nat.le_add_right, if_true, Nat.add_sub_cancel_left]
  cases dropB d o with
  | none => rfl
  | some l => rfl

theorem origAtM_eq {o : Nat} (hd : blen d ≤ isizeMax) (ho : o ≤ blen d) : origAtM b d o = origAt d o := by
  have hw := wordSize_eq
  have hi := isizeMax_eq
  unfold origAtM origAt
  by_cases hs : Item.strict ι = true
  · have h1 : (Item.strict ι && decide (blen d < o)) = false := by simp; omega
    rw [if_pos hs, h1, Build.sub_fits ho]
    simp only [Bool.false_eq_true, if_false]
    rw [origSubM_eq (by omega)]
    unfold origSub
    cases h : dropB d o with
    | none => rfl
    | some l =>
      have := dropB_len h
      simp only
      rw [show blen d - o = blen l by omega, takeB_all]
  · rw [if_neg hs]
    simp only [hs, Bool.false_and, Bool.false_eq_true, if_false]
    cases dropB d o <;> rfl

theorem peekM_eq {o : Nat} (hd : blen d ≤ isizeMax) (ho : o ≤ blen d) : peekM b d o = peek d o := by
  unfold peekM peek
  rw [origAtM_eq hd ho]
  rfl

theorem remM_eq {o : Nat} (ho : o ≤ blen d) (k : Nat → Option (Res α)) :
    remM b d o k = k (blen d - o) := by
  unfold remM
  rw [Build.sub_fits ho]
  rfl

theorem remK_pos {o : Nat} (ho : o ≤ blen d) (k : Nat → Option (Res α)) :
    remK d o k = k (blen d - o) := by
  unfold remK
  rw [if_pos ho]

theorem agree_spanInc {o n : Nat} (hd : blen d ≤ isizeMax) (h : o + n ≤ blen d) :
    SameOn b d o (some (newSpanInc o n)) (spanIncM b o n) := by
  have hw := wordSize_eq
  have hi := isizeMax_eq
  unfold newSpanInc spanIncM
  rw [Build.add_fits (by omega)]
  exact ⟨rfl, Nat.le_refl _, h, Nat.le_add_right _ _, h⟩

theorem agree_span {o : Nat} {v stop : Option Nat} (hd : blen d ≤ isizeMax) (ho : o ≤ blen d)
    (h : ∀ i, stop = some i → i ≤ blen d - o) :
    SameOn b d o (spanK o (calcLength v stop (blen d - o))) (spanM b o (calcLengthM b v stop (blen d - o))) := by
  cases v with
  | none => exact agree_spanInc hd (by simpa using ho)
  | some v =>
    have hg : stop.getD (blen d - o) ≤ blen d - o := by
      cases stop with
      | none => exact Nat.le_refl _
      | some i => exact h i rfl
    simp only [calcLength, calcLengthM]
    split
    · next hv =>
      rw [Build.sub_fits hv]
      exact agree_spanInc hd (by omega)
    · next hv =>
      intro hb
      subst hb
      simp [Build.sub, hv, Build.dev, spanM, opK]

/-! ## Unit patterns -/

section Units

variable {mt mt' : List ι → Pat ι β → Nat → Option (Res Span)} {c : Cond ι β} {o : Nat}

/-- What is needed of the pattern of a condition. -/
def CondAgree (b : Build) (mt mt' : List ι → Pat ι β → Nat → Option (Res Span)) (c : Cond ι β)
    (d : List ι) : Prop :=
  ∀ q, c.Has q → ∀ d' : List ι, blen d' ≤ blen d → SameOn b d' 0 (mt d' q 0) (mt' d' q 0)

theorem agree_check (hm : CondAgree b mt mt' c d) (hd : blen d ≤ isizeMax) {pr : Nat × ι}
    (hpr : o + pr.1 ≤ blen d) :
    SameOnO b (fun _ => True) (check mt d o c pr) (checkM b mt' d o c pr) := by
  have hw := wordSize_eq
  have hi := isizeMax_eq
  cases c with
  | empty => exact ⟨rfl, trivial⟩
  | fn f =>
    simp only [check, checkM]
    cases f d o pr with
    | ok a => exact ⟨rfl, trivial⟩
    | err e => rfl
    | panic => intro _; rfl
  | regex q =>
    simp only [check, checkM]
    rw [Build.add_fits (by omega)]
    simp only
    rw [origAtM_eq hd hpr]
    cases h : origAt d (o + pr.1) with
    | panic => intro _; rfl
    | err e => rfl
    | ok d' =>
      simp only
      have hl := dropB_len (origAt_ok.mp h)
      have hq := hm q rfl d' (by omega)
      generalize mt d' q 0 = x at hq ⊢
      cases x with
      | none => trivial
      | some r =>
        cases r with
        | panic => intro hb; rw [hq hb]
        | ok s o' => rw [hq.1]; exact ⟨rfl, trivial⟩
        | err e o' => rw [hq.1]; exact ⟨rfl, trivial⟩

theorem agree_test (hm : CondAgree b mt mt' c d) (hd : blen d ≤ isizeMax) {u : Neu ι} {pr : Nat × ι}
    (hpr : o + pr.1 ≤ blen d) :
    SameOnO b (fun _ => True) (testItem mt d o u c pr) (testItemM b mt' d o u c pr) := by
  unfold testItem testItemM
  split
  · exact agree_check hm hd hpr
  · exact ⟨rfl, trivial⟩

/-- The positions of a scan stay below `n`. -/
def ScanIn (n : Nat) (s : Scan ι) : Prop :=
  (∀ i, s.stop = some i → i ≤ n) ∧ ∀ i, s.stop.or (s.rest.head?.map (·.1)) = some i → i ≤ n

theorem agree_scan {test test' : Nat × ι → Option (Out Bool)} {more : Nat → Bool} {n : Nat} :
    ∀ (it : List (Nat × ι)) (cnt : Nat) (beg : Option Nat),
      (∀ pr ∈ it, SameOnO b (fun _ => True) (test pr) (test' pr)) → (∀ pr ∈ it, pr.1 ≤ n) →
      SameOnO b (ScanIn n) (scan test more cnt beg it) (scan test' more cnt beg it)
  | [], cnt, beg, _, _ => ⟨rfl, by simp [ScanIn]⟩
  | pr :: it, cnt, beg, ht, hn => by
    simp only [scan]
    split
    · have h1 := ht pr (by simp)
      generalize test pr = x at h1 ⊢
      cases x with
      | none => trivial
      | some r =>
        cases r with
        | panic => intro hb; rw [h1 hb]
        | err e => rw [show test' pr = _ from h1]; rfl
        | ok t =>
          rw [h1.1]
          cases t with
          | true => exact agree_scan it _ _ (fun q hq => ht q (by simp [hq])) (fun q hq => hn q (by simp [hq]))
          | false =>
            refine ⟨rfl, ?_, ?_⟩ <;> intro i hi <;> simp at hi <;> subst hi <;> exact hn pr (by simp)
    · refine ⟨rfl, ?_, ?_⟩
      · intro i hi; simp at hi
      · intro i hi; simp at hi; subst hi; exact hn pr (by simp)

theorem agree_scanM {test test' : Nat × ι → Option (Out Bool)} {more : Nat → Bool} {n : Nat} :
    ∀ (it : List (Nat × ι)) (cnt : Nat) (beg : Option Nat),
      (∀ pr ∈ it, SameOnO b (fun _ => True) (test pr) (test' pr)) → (∀ pr ∈ it, pr.1 ≤ n) →
      cnt + it.length < wordSize →
      SameOnO b (ScanIn n) (scan test more cnt beg it) (scanM b test' more cnt beg it)
  | [], cnt, beg, _, _, _ => ⟨rfl, by simp [ScanIn]⟩
  | pr :: it, cnt, beg, ht, hn, hc => by
    simp only [scan, scanM]
    simp only [List.length_cons] at hc
    split
    · have h1 := ht pr (by simp)
      generalize test pr = x at h1 ⊢
      cases x with
      | none => trivial
      | some r =>
        cases r with
        | panic => intro hb; rw [h1 hb]
        | err e => rw [show test' pr = _ from h1]; rfl
        | ok t =>
          rw [h1.1]
          cases t with
          | true =>
            simp only
            rw [Build.add_fits (by omega)]
            exact agree_scanM it _ _ (fun q hq => ht q (by simp [hq])) (fun q hq => hn q (by simp [hq]))
              (by omega)
          | false =>
            refine ⟨rfl, ?_, ?_⟩ <;> intro i hi <;> simp at hi <;> subst hi <;> exact hn pr (by simp)
    · refine ⟨rfl, ?_, ?_⟩
      · intro i hi; simp at hi
      · intro i hi; simp at hi; subst hi; exact hn pr (by simp)

/-- What `peek` yields. -/
def ItemsIn (d : List ι) (o : Nat) (it : List (Nat × ι)) : Prop :=
  it.length ≤ blen d ∧ ∀ pr ∈ it, pr.1 ≤ blen d - o

theorem agree_peek (hd : blen d ≤ isizeMax) (ho : o ≤ blen d) :
    SameOnO b (ItemsIn d o) (some (peek d o)) (some (peekM b d o)) := by
  rw [peekM_eq hd ho]
  cases h : peek d o with
  | panic => intro _; rfl
  | err e => rfl
  | ok it =>
    refine ⟨rfl, peek_length h, fun pr hpr => ?_⟩
    obtain ⟨l, hl, rfl⟩ := peek_ok.mp h
    obtain ⟨x, y, h1, h2⟩ := mem_indices hpr
    have := dropB_len hl
    rw [h1] at this
    simp at this
    omega

theorem head_in {it : List (Nat × ι)} {n i : Nat} (h : ∀ pr ∈ it, pr.1 ≤ n)
    (hi : it.head?.map (·.1) = some i) : i ≤ n := by
  cases it with
  | nil => simp at hi
  | cons pr it => simp at hi; subst hi; exact h pr (by simp)

variable (hm : CondAgree b mt mt' c d) (hd : blen d ≤ isizeMax) (ho : o ≤ blen d) (u : Neu ι)
include hm hd ho

theorem agree_tests {it : List (Nat × ι)} (hit : ItemsIn d o it) :
    ∀ pr ∈ it, SameOnO b (fun _ => True) (testItem mt d o u c pr) (testItemM b mt' d o u c pr) :=
  fun pr hpr => agree_test hm hd (by have := hit.2 pr hpr; omega)

theorem agree_once : SameOn b d o (onceParse mt d u c o) (onceM b mt' d u c o) := by
  refine agree_caseO (agree_peek hd ho) (fun it hit => ?_) fun e => .err (Nat.le_refl _) ho
  rw [remK_pos ho, remM_eq ho]
  cases it with
  | nil => exact .err (Nat.le_refl _) ho
  | cons pr it =>
    refine agree_caseO (agree_tests hm hd ho u hit pr (by simp)) (fun t _ => ?_)
      fun e => .err (Nat.le_refl _) ho
    split
    · exact agree_span hd ho fun i hi => head_in (fun q hq => hit.2 q (by simp [hq])) hi
    · exact .err (Nat.le_refl _) ho

theorem within_empty (ho : o ≤ blen d) : Within d o (.ok ⟨o, 0⟩ o) :=
  ⟨Nat.le_refl _, by simpa using ho, Nat.le_refl _, ho⟩

theorem agree_optU : SameOn b d o (optUParse mt d u c o) (optUM b mt' d u c o) := by
  unfold optUParse optUM
  rw [remK_pos ho, remM_eq ho]
  refine agree_caseO (agree_peek hd ho) (fun it hit => ?_) fun e => .ok (within_empty hm hd ho ho)
  cases it with
  | nil => exact .ok (within_empty hm hd ho ho)
  | cons pr it =>
    refine agree_caseO (agree_tests hm hd ho u hit pr (by simp)) (fun t _ => ?_)
      fun e => .err (Nat.le_refl _) ho
    split
    · exact agree_span hd ho fun i hi => head_in (fun q hq => hit.2 q (by simp [hq])) hi
    · exact .ok (within_empty hm hd ho ho)

theorem agree_many0 : SameOn b d o (many0Parse mt d u c o) (many0M b mt' d u c o) := by
  unfold many0Parse many0M
  rw [remK_pos ho, remM_eq ho]
  refine agree_caseO (agree_peek hd ho) (fun it hit => ?_) fun e => .ok (within_empty hm hd ho ho)
  refine agree_caseO (agree_scan it _ _ (agree_tests hm hd ho u hit) hit.2) (fun s hs => ?_)
    fun e => .err (Nat.le_refl _) ho
  cases s.beg with
  | none => exact .ok (within_empty hm hd ho ho)
  | some v => exact agree_span hd ho hs.1

theorem agree_many1 : SameOn b d o (many1Parse mt d u c o) (many1M b mt' d u c o) := by
  refine agree_caseO (agree_peek hd ho) (fun it hit => ?_) fun e => .err (Nat.le_refl _) ho
  rw [remK_pos ho, remM_eq ho]
  refine agree_caseO (agree_scan it _ _ (agree_tests hm hd ho u hit) hit.2) (fun s hs => ?_)
    fun e => .err (Nat.le_refl _) ho
  cases s.beg with
  | none => exact .err (Nat.le_refl _) ho
  | some v => exact agree_span hd ho hs.1

theorem agree_between {m n : Nat} (hu : m * u.minLength < 2 ^ 64) :
    SameOn b d o (betweenParse mt d m n u c o) (betweenM b mt' d m n u c o) := by
  have hw := wordSize_eq
  have hi := isizeMax_eq
  refine agree_caseO (agree_peek hd ho) (fun it hit => ?_) fun e => .err (Nat.le_refl _) ho
  rw [remK_pos ho, remM_eq ho, Build.mul_fits hu]
  simp only [opK]
  split
  · refine agree_caseO (agree_scanM it _ _ (agree_tests hm hd ho u hit) hit.2
      (by have := hit.1; omega)) (fun s hs => ?_) fun e => .err (Nat.le_refl _) ho
    split
    · exact agree_span hd ho hs.2
    · exact .err (Nat.le_refl _) ho
  · exact .err (Nat.le_refl _) ho

theorem agree_times {r : CRange} (hu : r.needed u.minLength < 2 ^ 64) :
    SameOn b d o (timesParse mt d r u c o) (timesM b mt' d r u c o) := by
  have hw := wordSize_eq
  have hi := isizeMax_eq
  have hn : neededM b r u.minLength = some (r.needed u.minLength) := by
    unfold neededM CRange.needed at *
    split <;> rename_i hl <;> simp only [hl] at hu ⊢
    · exact Build.mul_fits hu
    · exact Build.mul_fits hu
  refine agree_caseO (agree_peek hd ho) (fun it hit => ?_) fun e => .err (Nat.le_refl _) ho
  rw [remK_pos ho, remM_eq ho, hn]
  simp only [opK]
  split
  · refine agree_caseO (agree_scanM it _ _ (agree_tests hm hd ho u hit) hit.2
      (by have := hit.1; omega)) (fun s hs => ?_) fun e => .err (Nat.le_refl _) ho
    split
    · exact agree_span hd ho hs.2
    · exact .err (Nat.le_refl _) ho
  · exact .err (Nat.le_refl _) ho

theorem agree_thenU (v : Neu ι) (hu : u.minLength + v.minLength < 2 ^ 64) :
    SameOn b d o (thenUParse mt d u v c o) (thenUM b mt' d u v c o) := by
  refine agree_caseO (agree_peek hd ho) (fun it hit => ?_) fun e => .err (Nat.le_refl _) ho
  rw [remK_pos ho, remM_eq ho, Build.add_fits hu]
  simp only [opK]
  split
  · rcases it with _ | ⟨fst, _ | ⟨snd, it⟩⟩
    · exact .err (Nat.le_refl _) ho
    · exact .err (Nat.le_refl _) ho
    · refine agree_caseO (agree_tests hm hd ho u hit _ (by simp)) (fun t _ => ?_)
        fun e => .err (Nat.le_refl _) ho
      split
      · refine agree_caseO (agree_tests hm hd ho v hit _ (by simp)) (fun t _ => ?_)
          fun e => .err (Nat.le_refl _) ho
        split
        · exact agree_span hd ho fun i hi => head_in (fun q hq => hit.2 q (by simp [hq])) hi
        · exact .err (Nat.le_refl _) ho
      · exact .err (Nat.le_refl _) ho
  · exact .err (Nat.le_refl _) ho

end Units

/-! ## Other leaves -/

theorem agree_lit {o : Nat} (hd : blen d ≤ isizeMax) (ho : o ≤ blen d) (l : List ι) :
    SameOn b d o (litParse d l o) (litM b d l o) := by
  unfold litParse litM
  rw [remK_pos ho, remM_eq ho, origAtM_eq hd ho]
  split
  · cases h : origAt d o with
    | panic => intro _; rfl
    | err e => exact .err (Nat.le_refl _) ho
    | ok rest =>
      simp only [caseO]
      split
      · exact agree_spanInc hd (by omega)
      · exact .err (Nat.le_refl _) ho
  · exact .err (Nat.le_refl _) ho

theorem agree_consume {o : Nat} (hd : blen d ≤ isizeMax) (ho : o ≤ blen d) (n : Nat) :
    SameOn b d o (consumeParse d n o) (consumeM b d n o) := by
  unfold consumeParse consumeM
  rw [remK_pos ho, remM_eq ho]
  split
  · exact agree_spanInc hd (by omega)
  · exact .err (Nat.le_refl _) ho

/-! ## Loops -/

section Loops

variable {mt mt' : Pat ι β → Nat → Option (Res Span)}

/-- Attempts of `p` agree wherever they start. -/
def SameAll (b : Build) (d : List ι) (mt mt' : Pat ι β → Nat → Option (Res Span)) (p : Pat ι β) : Prop :=
  ∀ o, o ≤ blen d → SameOn b d o (mt p o) (mt' p o)

theorem agree_choice {e : Error} {beg : Nat} (hb : beg ≤ blen d) :
    ∀ (items : List (Pat ι β × Option (Val β))) (o : Nat), beg ≤ o → o ≤ blen d →
      (∀ it ∈ items, SameAll b d mt mt' it.1) →
      SameOn b d beg (choiceLoop mt e beg items o) (choiceLoop mt' e beg items o)
  | [], o, h1, h2, _ => .err h1 h2
  | it :: items, o, h1, h2, h => by
    refine agree_caseR ((h it (by simp) o h2)) (fun s o' _ hw => .ok (hw.mono h1)) fun e' o' _ => ?_
    exact agree_choice hb items beg (Nat.le_refl _) hb fun i hi => h i (by simp [hi])

theorem agree_ltm {e : Error} {beg : Nat} (hb : beg ≤ blen d) :
    ∀ (items : List (Pat ι β × Option (Val β))) (best : Option Span) (o : Nat), beg ≤ o → o ≤ blen d →
      (∀ s, best = some s → beg ≤ s.beg ∧ s.beg + s.len ≤ blen d) →
      (∀ it ∈ items, SameAll b d mt mt' it.1) →
      SameOn b d beg (ltmLoop mt e beg items best o) (ltmLoop mt' e beg items best o)
  | [], none, o, h1, h2, _, _ => .err h1 h2
  | [], some s, o, h1, h2, hs, _ => .ok ⟨(hs s rfl).1, (hs s rfl).2, h1, h2⟩
  | it :: items, best, o, h1, h2, hs, h => by
    unfold ltmLoop
    refine agree_caseR (h it (by simp) beg hb) (fun s o' _ hw => ?_) fun e' o' hw => ?_
    · refine agree_ltm hb items _ o' hw.2.2.1 hw.2.2.2 (fun t ht => ?_) fun i hi => h i (by simp [hi])
      have hcase : t = s ∨ best = some t := by
        cases best with
        | none => simp at ht; exact .inl ht.symm
        | some v =>
          simp only at ht
          split at ht
          · exact .inl (by cases ht; rfl)
          · exact .inr ht
      rcases hcase with rfl | hcase
      · exact ⟨hw.1, hw.2.1⟩
      · exact hs t hcase
    · exact agree_ltm hb items _ o' hw.1 hw.2 hs fun i hi => h i (by simp [hi])

/-- `finish` agrees with itself. -/
theorem agree_finish {ok : Nat → Bool} {e : Error} {beg cnt o : Nat} {t : Span} (hb : beg ≤ blen d)
    (h1 : beg ≤ t.beg) (h2 : t.beg + t.len ≤ blen d) (h3 : beg ≤ o) (h4 : o ≤ blen d) :
    SameOn b d beg (finish ok e beg cnt t o) (finish ok e beg cnt t o) := by
  unfold finish
  split
  · exact .ok ⟨h1, h2, h3, h4⟩
  · exact .err (Nat.le_refl _) hb

/-- Counting: either the loop condition bounds the count, or there is none. -/
def CountOk (more : Nat → Bool) (cnt o : Nat) : Prop :=
  (∀ c, more c = true → c + 1 < wordSize) ∨ ((∀ c, more c = true) ∧ cnt ≤ o)

theorem addAssign_self {t s t' : Span} (h : t.addAssign s = some t') : t'.addAssign s = some t' := by
  unfold Span.addAssign at h ⊢
  split at h
  · next hc =>
    cases h
    obtain ⟨h1, h2⟩ := hc
    rw [if_pos ⟨h1, by simp only; omega⟩]
    simp only [Option.some.injEq, Span.mk.injEq, true_and]
    omega
  · cases h

/-- A repetition that does not move never ends. -/
theorem repLoop_stuck {p : Pat ι β} {more : Nat → Bool} {fin : Nat → Span → Nat → Option (Res Span)}
    (hmore : ∀ c, more c = true) {s t : Span} {o : Nat} (h : mt p o = some (.ok s o))
    (ht : t.addAssign s = some t) : ∀ (fuel cnt : Nat), repLoop mt p more fin fuel cnt t o = none
  | 0, _ => rfl
  | fuel + 1, cnt => by
    simp only [repLoop, hmore, if_true, h, caseR, addK, ht]
    exact repLoop_stuck hmore h ht fuel (cnt + 1)

theorem agree_rep {p : Pat ι β} {more ok : Nat → Bool} {e : Error} {beg : Nat} (hd : blen d ≤ isizeMax)
    (hb : beg ≤ blen d) (hp : SameAll b d mt mt' p) :
    ∀ (fuel cnt : Nat) (t : Span) (o : Nat), CountOk more cnt o → beg ≤ t.beg → t.beg + t.len ≤ blen d →
      beg ≤ o → o ≤ blen d →
      SameOn b d beg (repLoop mt p more (finish ok e beg) fuel cnt t o)
        (repM b mt' p more (finish ok e beg) fuel cnt t o)
  | 0, _, _, _, _, _, _, _, _ => trivial
  | fuel + 1, cnt, t, o, hc, h1, h2, h3, h4 => by
    have hw := wordSize_eq
    have hi := isizeMax_eq
    simp only [repLoop, repM]
    split
    · next hm =>
      refine agree_caseR (hp o h4) (fun s o' hx hs => ?_) fun e' o' hw' =>
        agree_finish hb h1 h2 (Nat.le_trans h3 hw'.1) hw'.2
      refine agree_add hd h2 hs.2.1 fun t' ht' e1 e2 => ?_
      have hadd : b.add cnt 1 = some (cnt + 1) := by
        apply Build.add_fits
        rcases hc with hc | hc
        · exact hc cnt hm
        · omega
      rw [hadd]
      simp only [opK]
      have hgo : CountOk more (cnt + 1) o' → _ := fun hc' =>
        agree_rep (ok := ok) (e := e) hd hb hp fuel (cnt + 1) t' o' hc' (by omega) (by have := hs.2.1; omega)
          (Nat.le_trans h3 hs.2.2.1) hs.2.2.2
      rcases hc with hc | ⟨hall, hle⟩
      · exact hgo (.inl hc)
      · rcases Nat.lt_or_eq_of_le hs.2.2.1 with hlt | heq
        · exact hgo (.inr ⟨hall, by omega⟩)
        · subst heq
          rw [repLoop_stuck hall hx (addAssign_self ht')]
          trivial
    · exact agree_finish hb h1 h2 h3 h4

/-- A separated list that does not move never ends. -/
theorem sepLoop_stuck {p q : Pat ι β} {skip : Bool} {more : Nat → Bool}
    {fin : Nat → Span → Nat → Option (Res Span)}
    (hmore : ∀ c, more c = true) {ps ss t t1 : Span} {o o' : Nat} (h : mt p o = some (.ok ps o'))
    (h' : mt q o' = some (.ok ss o)) (ht : t.addAssign ps = some t1) (ht' : t1.addAssign ss = some t) :
    ∀ (fuel cnt : Nat), sepLoop mt p q skip more fin fuel cnt t o = none
  | 0, _ => rfl
  | fuel + 1, cnt => by
    simp only [sepLoop, hmore, if_true, h, h', caseR, addK, ht, ht']
    exact sepLoop_stuck hmore h h' ht ht' fuel (cnt + 1)

/-- Merging the same two spans again gives the same region. -/
theorem addAssign_again {t ps t1 ss t2 t1' : Span} (h1 : t.addAssign ps = some t1)
    (h2 : t1.addAssign ss = some t2) (h3 : t2.addAssign ps = some t1') : t1'.addAssign ss = some t2 := by
  unfold Span.addAssign at *
  split at h1
  · next c1 =>
    cases h1
    split at h2
    · next c2 =>
      cases h2
      split at h3
      · next c3 =>
        cases h3
        simp only at *
        rw [if_pos ⟨c2.1, by omega⟩]
        simp only [Option.some.injEq, Span.mk.injEq, true_and]
        omega
      · cases h3
    · cases h2
  · cases h1

theorem agree_sep {p q : Pat ι β} {skip : Bool} {more ok : Nat → Bool} {e : Error} {beg : Nat}
    (hd : blen d ≤ isizeMax) (hb : beg ≤ blen d) (hp : SameAll b d mt mt' p) (hq : SameAll b d mt mt' q) :
    ∀ (fuel cnt : Nat) (t : Span) (o : Nat), CountOk more cnt o → beg ≤ t.beg → t.beg + t.len ≤ blen d →
      beg ≤ o → o ≤ blen d →
      SameOn b d beg (sepLoop mt p q skip more (finish ok e beg) fuel cnt t o)
        (sepM b mt' p q skip more (finish ok e beg) fuel cnt t o)
  | 0, _, _, _, _, _, _, _, _ => trivial
  | fuel + 1, cnt, t, o, hc, h1, h2, h3, h4 => by
    have hw := wordSize_eq
    have hi := isizeMax_eq
    simp only [sepLoop, sepM]
    split
    · next hm =>
      have hadd : b.add cnt 1 = some (cnt + 1) := by
        apply Build.add_fits
        rcases hc with hc | hc
        · exact hc cnt hm
        · omega
      refine agree_caseR (hp o h4) (fun ps o' hx hs => ?_) fun e' o' hw' =>
        agree_finish hb h1 h2 (Nat.le_trans h3 hw'.1) hw'.2
      refine agree_caseR (hq o' hs.2.2.2) (fun ss o'' hy hs' => ?_) fun e' o'' hw' => ?_
      · rw [hadd]
        simp only [opK]
        refine agree_add hd h2 hs.2.1 fun t1 ht1 e1 e2 => ?_
        have hb1 : t1.beg + t1.len ≤ blen d := by have := hs.2.1; omega
        refine agree_add hd hb1 hs'.2.1 fun t2 ht2 e3 e4 => ?_
        have hb2 : t2.beg + t2.len ≤ blen d := by have := hs'.2.1; omega
        have hoo : o ≤ o'' := Nat.le_trans hs.2.2.1 hs'.2.2.1
        have hgo : CountOk more (cnt + 1) o'' → _ := fun hc' =>
          agree_sep (skip := skip) (ok := ok) (e := e) hd hb hp hq fuel (cnt + 1) t2 o'' hc' (by omega) hb2 (Nat.le_trans h3 hoo) hs'.2.2.2
        rcases hc with hc | ⟨hall, hle⟩
        · exact hgo (.inl hc)
        · rcases Nat.lt_or_eq_of_le hoo with hlt | heq
          · exact hgo (.inr ⟨hall, by omega⟩)
          · subst heq
            cases h5 : t2.addAssign ps with
            | some t1' =>
              rw [sepLoop_stuck hall hx hy h5 (addAssign_again ht1 ht2 h5)]
              trivial
            | none =>
              cases fuel with
              | zero => trivial
              | succ fuel =>
                simp only [sepLoop, hall, if_true, hx, hy, caseR, addK, h5]
                intro hdev
                subst hdev
                have hx' := hp o h4
                have hy' := hq o' hs.2.2.2
                rw [hx] at hx'
                rw [hy] at hy'
                simp only [sepM, hall, if_true, hx'.1, hy'.1, caseR]
                rw [Build.add_fits (by omega)]
                simp only [opK, addM]
                rw [addAssignM_none (by omega) (by have := hs.2.1; omega) h5]
      · split
        · rw [hadd]
          simp only [opK]
          refine agree_add hd h2 hs.2.1 fun t1 ht1 e1 e2 => ?_
          exact agree_finish hb (by omega) (by have := hs.2.1; omega)
            (Nat.le_trans h3 (Nat.le_trans hs.2.2.1 hw'.1)) hw'.2
        · exact agree_finish hb h1 h2 (Nat.le_trans h3 (Nat.le_trans hs.2.2.1 hw'.1)) hw'.2
    · exact agree_finish hb h1 h2 h3 h4

end Loops

/-! ## All patterns -/

section All

variable {G : Rules ι β} {pol : Option (Pat ι β)}

theorem agree_mat {pr pr' : Option (Pat ι β) → List ι → Pat ι β → Nat → Option (Res Span)} {p : Pat ι β}
    (hp : ∀ o, o ≤ blen d → SameOn b d o (pr pol d p o) (pr' pol d p o))
    (hq : ∀ q, pol = some q → ∀ o, o ≤ blen d → SameOn b d o (pr none d q o) (pr' none d q o)) :
    ∀ o, o ≤ blen d → SameOn b d o (matWith pr pol d p o) (matWith pr' pol d p o) := by
  intro o ho
  cases pol with
  | none => exact hp o ho
  | some q =>
    exact agree_caseR (hq q rfl o ho) (fun s o' _ hw => (hp o' hw.2.2.2).mono hw.2.2.1)
      fun e o' hw => .err hw.1 hw.2

theorem more_small {r : CRange} (h : match r.hi with | .incl n | .excl n => n < 2 ^ 64 | .unb => True)
    (o : Nat) : CountOk r.more 0 o := by
  have hw := wordSize_eq
  unfold CountOk CRange.more
  cases hr : r.hi with
  | incl n => rw [hr] at h; simp only [decide_eq_true_eq] at h ⊢; exact .inl fun c hc => by omega
  | excl n => rw [hr] at h; simp only [decide_eq_true_eq] at h ⊢; exact .inl fun c hc => by omega
  | unb => exact .inr ⟨fun _ => rfl, Nat.zero_le _⟩

theorem agree_step {fuel : Nat} {mt mt' : List ι → Pat ι β → Nat → Option (Res Span)}
    {pr pr' : Pat ι β → Nat → Option (Res Span)} (hd : blen d ≤ isizeMax) {p : Pat ι β}
    (hp : All G FitsWord p)
    (hmt : ∀ q, All G FitsWord q → ∀ d' : List ι, blen d' ≤ blen d → ∀ o, o ≤ blen d' →
      SameOn b d' o (mt d' q o) (mt' d' q o))
    (hpr : ∀ q, All G FitsWord q → ∀ o, o ≤ blen d → SameOn b d o (pr q o) (pr' q o))
    (o : Nat) (ho : o ≤ blen d) : SameOn b d o (step G fuel mt pr d p o) (stepM b G fuel mt' pr' d p o) := by
  have hw := wordSize_eq
  have hi := isizeMax_eq
  have hself := hp.self
  have herr : ∀ e, SameOn b d o (some (.err e o)) (some (.err e o)) := fun e => .err (Nat.le_refl _) ho
  have hemp : SameOn b d o (some (.ok ⟨o, 0⟩ o)) (some (.ok ⟨o, 0⟩ o)) :=
    .ok ⟨Nat.le_refl _, by simpa using ho, Nat.le_refl _, ho⟩
  have hsub : ∀ q, Child G q p → ∀ o, o ≤ blen d → SameOn b d o (mt d q o) (mt' d q o) :=
    fun q hq o ho => hmt q (hp.child hq) d (Nat.le_refl _) o ho
  have hcond : ∀ c : Cond ι β, (∀ q, c.Has q → Child G q p) → CondAgree b mt mt' c d :=
    fun c hc q hq d' hd' => hmt q (hp.child (hc q hq)) d' hd' 0 (Nat.zero_le _)
  have hseq : ∀ x y, Child G x p → Child G y p → SameOn b d o
      (caseR (mt d x o)
        (fun s1 o1 => caseR (mt d y o1)
          (fun s2 o2 => addK s1 s2 fun s => some (.ok s o2)) (fun e _ => some (.err e o)))
        (fun e _ => some (.err e o)))
      (caseR (mt' d x o)
        (fun s1 o1 => caseR (mt' d y o1)
          (fun s2 o2 => addM b s1 s2 fun s => some (.ok s o2)) (fun e _ => some (.err e o)))
        (fun e _ => some (.err e o))) := by
    intro x y hx hy
    refine agree_caseR (hsub x hx o ho) (fun s1 o1 _ h1 => ?_) fun e _ _ => herr e
    refine agree_caseR (hsub y hy o1 h1.2.2.2) (fun s2 o2 _ h2 => ?_) fun e _ _ => herr e
    refine agree_add hd h1.2.1 h2.2.1 fun s _ e1 e2 => ?_
    obtain ⟨a1, a2, a3, a4⟩ := h1
    obtain ⟨b1, b2, b3, b4⟩ := h2
    exact .ok ⟨by omega, by omega, by omega, b4⟩
  cases p with
  | empty => exact hemp
  | fail => exact herr _
  | start =>
    simp only [step, stepM]
    split
    · exact agree_spanInc hd (by simpa using ho)
    · exact herr _
  | anchorEnd =>
    simp only [step, stepM]
    split
    · exact agree_spanInc hd (by simpa using ho)
    · exact herr _
  | consume n => exact agree_consume hd ho n
  | consumeAll => exact agree_spanInc hd (by omega)
  | lit l => exact agree_lit hd ho l
  | native f =>
    have := hself d o ho
    simp only [step, stepM]
    generalize f d o = r at this
    cases r with
    | panic => intro _; rfl
    | ok s o' => exact ⟨rfl, this⟩
    | err e o' => exact ⟨rfl, this⟩
  | once u c => exact agree_once (hcond c fun q hq => hq) hd ho u
  | many1 u c => exact agree_many1 (hcond c fun q hq => hq) hd ho u
  | optU u c => exact agree_optU (hcond c fun q hq => hq) hd ho u
  | many0 u c => exact agree_many0 (hcond c fun q hq => hq) hd ho u
  | between m n u c => exact agree_between (hcond c fun q hq => hq) hd ho u hself
  | times r u c => exact agree_times (hcond c fun q hq => hq) hd ho u hself
  | thenU u v c => exact agree_thenU (hcond c fun q hq => hq) hd ho u v hself
  | assert q value =>
    refine agree_caseR (hsub q rfl o ho) (fun s o' _ _ => ?_) fun e o' _ => ?_
    · cases value
      · exact herr _
      · exact hemp
    · cases value
      · exact hemp
      · exact herr _
  | thn x y => exact hseq x y (.inl rfl) (.inr rfl)
  | pre x y => exact hseq x y (.inl rfl) (.inr rfl)
  | suf x y => exact hseq x y (.inl rfl) (.inr rfl)
  | ifThen x t y =>
    refine agree_caseR (hsub x (.inl rfl) o ho) (fun s1 o1 _ h1 => ?_) fun e _ _ => herr e
    refine agree_caseR (hsub t (.inr (.inl rfl)) o1 h1.2.2.2) (fun s2 o2 _ h2 => ?_) fun e _ _ => .ok h1
    refine agree_add hd h1.2.1 h2.2.1 fun s12 _ e1 e2 => ?_
    refine agree_caseR (hsub y (.inr (.inr rfl)) o2 h2.2.2.2) (fun s3 o3 _ h3 => ?_) fun e _ _ => herr e
    obtain ⟨a1, a2, a3, a4⟩ := h1
    obtain ⟨b1, b2, b3, b4⟩ := h2
    obtain ⟨c1, c2, c3, c4⟩ := h3
    refine agree_add hd (by omega) c2 fun s _ e3 e4 => ?_
    exact .ok ⟨by omega, by omega, by omega, c4⟩
  | enclose x y z =>
    refine agree_caseR (hsub x (.inl rfl) o ho) (fun s1 o1 _ h1 => ?_) fun e _ _ => herr e
    refine agree_caseR (hsub y (.inr (.inl rfl)) o1 h1.2.2.2) (fun s2 o2 _ h2 => ?_) fun e _ _ => herr e
    refine agree_add hd h1.2.1 h2.2.1 fun s12 _ e1 e2 => ?_
    refine agree_caseR (hsub z (.inr (.inr rfl)) o2 h2.2.2.2) (fun s3 o3 _ h3 => ?_) fun e _ _ => herr e
    obtain ⟨a1, a2, a3, a4⟩ := h1
    obtain ⟨b1, b2, b3, b4⟩ := h2
    obtain ⟨c1, c2, c3, c4⟩ := h3
    refine agree_add hd (by omega) c2 fun s _ e3 e4 => ?_
    exact .ok ⟨by omega, by omega, by omega, c4⟩
  | sepOnce x y z =>
    refine agree_caseR (hsub x (.inl rfl) o ho) (fun s1 o1 _ h1 => ?_) fun e _ _ => herr e
    refine agree_add hd (by simpa using ho) h1.2.1 fun t1 _ e1 e2 => ?_
    refine agree_caseR (hsub y (.inr (.inl rfl)) o1 h1.2.2.2) (fun s2 o2 _ h2 => ?_) fun e _ _ => herr e
    obtain ⟨a1, a2, a3, a4⟩ := h1
    obtain ⟨b1, b2, b3, b4⟩ := h2
    refine agree_add hd (by omega) b2 fun t2 _ e3 e4 => ?_
    refine agree_caseR (hsub z (.inr (.inr rfl)) o2 b4) (fun s3 o3 _ h3 => ?_) fun e _ _ => herr e
    obtain ⟨c1, c2, c3, c4⟩ := h3
    refine agree_add hd (by omega) c2 fun s _ e5 e6 => ?_
    simp only at e1
    exact .ok ⟨by omega, by omega, by omega, c4⟩
  | or x y =>
    refine agree_caseR (hsub x (.inl rfl) o ho) (fun s o1 _ h1 => .ok h1) fun e _ _ => ?_
    exact agree_caseR (hsub y (.inr rfl) o ho) (fun s o1 _ h1 => .ok h1) fun e _ _ => herr e
  | longest x y =>
    have hpick : ∀ s o1, Within d o (.ok s o1) → SameOn b d o (some (.ok s (o + s.len)))
        (opK (b.add o s.len) fun o' => some (.ok s o')) := by
      intro s o1 h
      obtain ⟨a1, a2, a3, a4⟩ := h
      rw [Build.add_fits (by omega)]
      exact .ok ⟨a1, a2, by omega, by omega⟩
    refine agree_caseR (hsub x (.inl rfl) o ho) (fun l o1 _ h1 => ?_) fun e _ _ => ?_
    · refine agree_caseR (hsub y (.inr rfl) o ho) (fun r o2 _ h2 => ?_) fun e _ _ => hpick l o1 h1
      split
      · exact hpick l o1 h1
      · exact hpick r o2 h2
    · exact agree_caseR (hsub y (.inr rfl) o ho) (fun r o2 _ h2 => hpick r o2 h2) fun e _ _ => herr e
  | opt q =>
    exact agree_caseR (hsub q rfl o ho) (fun s o1 _ h1 => .ok h1) fun e _ _ => hemp
  | choice e items =>
    exact agree_choice ho items o (Nat.le_refl _) ho fun it hit => hsub it.1 ⟨it, hit, rfl⟩
  | ltm e items =>
    exact agree_ltm ho items none o (Nat.le_refl _) ho (fun s hs => by cases hs)
      fun it hit => hsub it.1 ⟨it, hit, rfl⟩
  | rep q r =>
    exact agree_rep hd ho (hsub q rfl) fuel 0 _ o (more_small hself o) (Nat.le_refl _)
      (by simpa using ho) (Nat.le_refl _) ho
  | rep2 q m n =>
    refine agree_rep hd ho (hsub q rfl) fuel 0 _ o (.inl fun c hc => ?_) (Nat.le_refl _)
      (by simpa using ho) (Nat.le_refl _) ho
    simp only [FitsWord] at hself
    simp only [decide_eq_true_eq] at hc
    omega
  | collect q min =>
    exact agree_rep hd ho (hsub q rfl) fuel 0 _ o (.inr ⟨fun _ => rfl, Nat.zero_le _⟩) (Nat.le_refl _)
      (by simpa using ho) (Nat.le_refl _) ho
  | sep q s skip min =>
    exact agree_sep hd ho (hsub q (.inl rfl)) (hsub s (.inr rfl)) fuel 0 _ o
      (.inr ⟨fun _ => rfl, Nat.zero_le _⟩) (Nat.le_refl _) (by simpa using ho) (Nat.le_refl _) ho
  | sep2 q s skip m n =>
    refine agree_sep hd ho (hsub q (.inl rfl)) (hsub s (.inr rfl)) fuel 0 _ o
      (.inl fun c hc => ?_) (Nat.le_refl _) (by simpa using ho) (Nat.le_refl _) ho
    simp only [FitsWord] at hself
    simp only [decide_eq_true_eq] at hc
    omega
  | sepCollect q s skip min =>
    exact agree_sep hd ho (hsub q (.inl rfl)) (hsub s (.inr rfl)) fuel 0 _ o
      (.inr ⟨fun _ => rfl, Nat.zero_le _⟩) (Nat.le_refl _) (by simpa using ho) (Nat.le_refl _) ho
  | branch test x y =>
    refine agree_caseO (P := fun _ => True) ?_ (fun t _ => ?_) herr
    · cases test d o with
      | ok t => exact ⟨rfl, trivial⟩
      | err e => rfl
      | panic => intro _; rfl
    · refine agree_caseR (hsub _ ?_ o ho) (fun s o1 _ h1 => .ok h1) fun e _ _ => herr e
      cases t
      · exact .inr rfl
      · exact .inl rfl
  | map q f => exact hsub q rfl o ho
  | pat q => exact hsub q rfl o ho
  | build q f =>
    refine agree_caseR (hsub q (.inl rfl) o ho) (fun s o1 _ h1 => ?_) fun e _ _ => herr e
    have hf := hself d o1 s h1.2.2.2
    cases hfe : f d o1 s with
    | panic => intro _; rfl
    | err e o2 =>
      rw [hfe] at hf
      exact .err (Nat.le_trans h1.2.2.1 hf.1) hf.2
    | ok p' o2 =>
      rw [hfe] at hf
      have hc : Child G p' (.build q f) := .inr ⟨d, o1, s, o2, hfe⟩
      exact agree_caseR (hsub p' hc o2 hf.2)
        (fun s' o3 _ h3 => .ok (h3.mono (Nat.le_trans h1.2.2.1 hf.1))) fun e _ _ => herr e
  | dthen q f => intro _; rfl
  | cell i =>
    simp only [step, stepM]
    cases hg : G i with
    | none => exact herr _
    | some q => exact hpr q (hp.child hg) o ho

theorem agree_parse : ∀ (n : Nat) (pol : Option (Pat ι β)), FitsWordPol G pol → ∀ (d : List ι),
    blen d ≤ isizeMax → ∀ (p : Pat ι β), All G FitsWord p → ∀ o, o ≤ blen d →
    SameOn b d o (parse G n pol d p o) (parseM b G n pol d p o)
  | 0, _, _, _, _, _, _, _, _ => trivial
  | n + 1, pol, hpol, d, hd, p, hp, o, ho =>
    agree_step hd hp
      (fun q hq d' hd' => agree_mat (fun o ho => agree_parse n pol hpol d' (Nat.le_trans hd' hd) q hq o ho)
        fun q' hq' o ho => agree_parse n none (fun _ h => by cases h) d' (Nat.le_trans hd' hd) q' (hpol q' hq') o ho)
      (fun q hq o ho => agree_parse n pol hpol d hd q hq o ho) o ho

theorem agree_tryMat (n : Nat) {pol : Option (Pat ι β)} (hpol : FitsWordPol G pol) (hd : blen d ≤ isizeMax)
    {p : Pat ι β} (hp : All G FitsWord p) {o : Nat} (ho : o ≤ blen d) :
    SameOn b d o (tryMat G n pol d p o) (tryMatM b G n pol d p o) :=
  agree_mat (fun o ho => agree_parse n pol hpol d hd p hp o ho)
    (fun q hq o ho => agree_parse n none (fun _ h => by cases h) d hd q (hpol q hq) o ho) o ho

end All

end Neure
