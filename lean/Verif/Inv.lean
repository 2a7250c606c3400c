import Verif.Den
import Verif.DataLemmas
import Verif.Sub
/-!
# Reasoning rules for the evaluator ("if it returns, then …")
-/

namespace Neure

set_option linter.unusedSectionVars false

variable {ι β : Type} [Item ι]

/-- If the computation returns, its result satisfies `Q`. -/
def Sat {α : Type} (r : Option α) (Q : α → Prop) : Prop := ∀ x, r = some x → Q x

theorem Sat.none {α : Type} {Q : α → Prop} : Sat none Q := fun _ h => by cases h
theorem Sat.some {α : Type} {Q : α → Prop} {x : α} (h : Q x) : Sat (some x) Q :=
  fun _ h' => by cases h'; exact h
theorem Sat.imp {α : Type} {r : Option α} {Q Q' : α → Prop} (h : Sat r Q)
    (hi : ∀ x, Q x → Q' x) : Sat r Q' := fun x hx => hi x (h x hx)

theorem sat_caseR {α γ : Type} {r : Option (Res α)} {k : α → Nat → Option (Res γ)}
    {e : Error → Nat → Option (Res γ)} {P : Res α → Prop} {Q : Res γ → Prop} (h : Sat r P)
    (hk : ∀ a o, P (.ok a o) → Sat (k a o) Q) (he : ∀ a o, P (.err a o) → Sat (e a o) Q)
    (hp : P .panic → Q .panic) : Sat (caseR r k e) Q := by
  intro x hx
  cases r with
  | none => simp [caseR] at hx
  | some v =>
    have hv := h v rfl
    cases v with
    | ok a o => exact hk a o hv x hx
    | err a o => exact he a o hv x hx
    | panic => simp only [caseR, Option.some.injEq] at hx; subst hx; exact hp hv

theorem sat_caseO {α γ : Type} {r : Option (Out α)} {k : α → Option (Res γ)}
    {e : Error → Option (Res γ)} {P : Out α → Prop} {Q : Res γ → Prop} (h : Sat r P)
    (hk : ∀ a, P (.ok a) → Sat (k a) Q) (he : ∀ a, P (.err a) → Sat (e a) Q)
    (hp : P .panic → Q .panic) : Sat (caseO r k e) Q := by
  intro x hx
  cases r with
  | none => simp [caseO] at hx
  | some v =>
    have hv := h v rfl
    cases v with
    | ok a => exact hk a hv x hx
    | err a => exact he a hv x hx
    | panic => simp only [caseO, Option.some.injEq] at hx; subst hx; exact hp hv

theorem sat_addK {γ : Type} {s t : Span} {k : Span → Option (Res γ)} {Q : Res γ → Prop}
    (hk : ∀ s', s.addAssign t = some s' → Sat (k s') Q)
    (hp : s.addAssign t = none → Q .panic) : Sat (addK s t k) Q := by
  unfold addK
  split
  · next h => exact Sat.some (hp h)
  · next h => exact hk _ h

theorem sat_remK {γ : Type} {d : List ι} {o : Nat} {k : Nat → Option (Res γ)} {Q : Res γ → Prop}
    (hk : o ≤ blen d → Sat (k (blen d - o)) Q) (hp : blen d < o → Q .panic) :
    Sat (remK d o k) Q := by
  unfold remK
  split
  · next h => exact hk h
  · next h => exact Sat.some (hp (by omega))

theorem sat_ite {γ : Type} {c : Prop} [Decidable c] {a b : Option γ} {Q : γ → Prop}
    (ha : c → Sat a Q) (hb : ¬ c → Sat b Q) : Sat (if c then a else b) Q := by
  split
  · next h => exact ha h
  · next h => exact hb h

theorem addAssign_eq {s t u : Span} : s.addAssign t = some u ↔
    s.beg ≤ t.beg ∧ s.stop ≤ t.stop ∧ u.beg = s.beg ∧ u.stop = t.stop := by
  unfold Span.addAssign Span.stop
  obtain ⟨sb, sl⟩ := s; obtain ⟨tb, tl⟩ := t; obtain ⟨ub, ul⟩ := u
  simp only
  split
  · simp only [Option.some.injEq, Span.mk.injEq]; omega
  · simp; omega

theorem addAssign_none {s t : Span} : s.addAssign t = none ↔
    ¬ (s.beg ≤ t.beg ∧ s.stop ≤ t.stop) := by
  unfold Span.addAssign Span.stop
  split <;> simp <;> omega

/-- Loop rule for `repLoop`. -/
theorem sat_repLoop {mt : Pat ι β → Nat → Option (Res Span)} {p : Pat ι β} {more : Nat → Bool}
    {fin : Nat → Span → Nat → Option (Res Span)} {Q : Res Span → Prop}
    (J : Nat → Span → Nat → Prop)
    (hb : ∀ cnt t o, J cnt t o → more cnt = true → Sat (mt p o) fun r => match r with
      | .ok s o' => (∀ t', t.addAssign s = some t' → J (cnt + 1) t' o') ∧
          (t.addAssign s = none → Q .panic)
      | .err _ o' => Sat (fin cnt t o') Q
      | .panic => Q .panic)
    (hx : ∀ cnt t o, J cnt t o → more cnt = false → Sat (fin cnt t o) Q)
    (n cnt : Nat) (t : Span) (o : Nat) (hJ : J cnt t o) : Sat (repLoop mt p more fin n cnt t o) Q := by
  induction n generalizing cnt t o with
  | zero => exact Sat.none
  | succ n ih =>
    simp only [repLoop]
    refine sat_ite (fun hm => ?_) (fun hm => hx _ _ _ hJ (by simpa using hm))
    refine sat_caseR (hb cnt t o hJ hm) (fun s o' h => ?_) (fun _ o' h => h) id
    exact sat_addK (fun t' ht => ih _ _ _ (h.1 t' ht)) h.2

/-- Loop rule for `sepLoop`. -/
theorem sat_sepLoop {mt : Pat ι β → Nat → Option (Res Span)} {p s : Pat ι β} {skip : Bool}
    {more : Nat → Bool} {fin : Nat → Span → Nat → Option (Res Span)} {Q : Res Span → Prop}
    (J : Nat → Span → Nat → Prop)
    (hb : ∀ cnt t o, J cnt t o → more cnt = true → Sat (mt p o) fun r => match r with
      | .ok ps o' => Sat (mt s o') fun r' => match r' with
        | .ok ss o'' =>
            (∀ t1 t2, t.addAssign ps = some t1 → t1.addAssign ss = some t2 → J (cnt + 1) t2 o'') ∧
            (t.addAssign ps = none → Q .panic) ∧
            (∀ t1, t.addAssign ps = some t1 → t1.addAssign ss = none → Q .panic)
        | .err _ o'' => (skip = true → (∀ t1, t.addAssign ps = some t1 →
            Sat (fin (cnt + 1) t1 o'') Q) ∧ (t.addAssign ps = none → Q .panic)) ∧
            (skip = false → Sat (fin cnt t o'') Q)
        | .panic => Q .panic
      | .err _ o' => Sat (fin cnt t o') Q
      | .panic => Q .panic)
    (hx : ∀ cnt t o, J cnt t o → more cnt = false → Sat (fin cnt t o) Q)
    (n cnt : Nat) (t : Span) (o : Nat) (hJ : J cnt t o) :
    Sat (sepLoop mt p s skip more fin n cnt t o) Q := by
  induction n generalizing cnt t o with
  | zero => exact Sat.none
  | succ n ih =>
    simp only [sepLoop]
    refine sat_ite (fun hm => ?_) (fun hm => hx _ _ _ hJ (by simpa using hm))
    refine sat_caseR (hb cnt t o hJ hm) (fun ps o' h => ?_) (fun _ o' h => h) id
    refine sat_caseR h (fun ss o'' h' => ?_) (fun _ o'' h' => ?_) id
    · exact sat_addK (fun t1 ht1 => sat_addK (fun t2 ht2 => ih _ _ _ (h'.1 t1 t2 ht1 ht2))
        (h'.2.2 t1 ht1)) h'.2.1
    · refine sat_ite (fun hs => sat_addK (h'.1 hs).1 (h'.1 hs).2)
        (fun hs => h'.2 (by simpa using hs))

/-- Rule for `choiceLoop`. -/
theorem sat_choiceLoop {mt : Pat ι β → Nat → Option (Res Span)} {e : Error} {beg : Nat}
    {Q : Res Span → Prop} (items : List (Pat ι β × Option (Val β)))
    (hb : ∀ it ∈ items, Sat (mt it.1 beg) fun r => match r with
      | .ok s o' => Q (.ok s o')
      | .err _ _ => True
      | .panic => Q .panic) (he : Q (.err e beg)) :
    Sat (choiceLoop mt e beg items beg) Q := by
  induction items with
  | nil => exact Sat.some he
  | cons it items ih =>
    simp only [choiceLoop]
    exact sat_caseR (hb it (by simp)) (fun _ _ h => Sat.some h)
      (fun _ _ _ => ih fun it hit => hb it (by simp [hit])) id

/-- The update of the best candidate in `ltmLoop`. -/
def better (best : Option Span) (s : Span) : Option Span :=
  if (match best with | none => true | some v => decide (v.len < s.len)) then some s else best

/-- Rule for `ltmLoop`: `R` relates the best span so far and the offset. -/
theorem sat_ltmLoop {mt : Pat ι β → Nat → Option (Res Span)} {e : Error} {beg : Nat}
    {Q : Res Span → Prop} (R : Option Span → Nat → Prop)
    (items : List (Pat ι β × Option (Val β)))
    (hb : ∀ it ∈ items, ∀ best o, R best o → Sat (mt it.1 beg) fun r => match r with
      | .ok s o' => R (better best s) o'
      | .err _ o' => R best o'
      | .panic => Q .panic)
    (hok : ∀ s o, R (some s) o → Q (.ok s o)) (herr : ∀ o, R none o → Q (.err e o))
    (best : Option Span) (o : Nat) (hR : R best o) :
    Sat (ltmLoop mt e beg items best o) Q := by
  induction items generalizing best o with
  | nil =>
    cases best with
    | none => exact Sat.some (herr _ hR)
    | some s => exact Sat.some (hok _ _ hR)
  | cons it items ih =>
    simp only [ltmLoop]
    refine sat_caseR (hb it (by simp) best o hR) (fun s o' h => ?_) (fun _ o' h => ?_) id
    · exact ih (fun it hit => hb it (by simp [hit])) _ _ h
    · exact ih (fun it hit => hb it (by simp [hit])) _ _ h

/-! ### Unit patterns -/

/-- What every unit pattern guarantees.  On success the consumed bytes are a run
of whole items (or nothing at all, when the position is not a boundary); on
failure the offset is unchanged; a panic comes from an offset past the end or
from the user's condition. -/
def LeafPost (d : List ι) (o : Nat) (tp : Prop) : Res Span → Prop
  | .ok s o' => s.beg = o ∧ o' = o + s.len ∧
      ((∃ run rest, dropB d o = some (run ++ rest) ∧ blen run = s.len) ∨ s.len = 0)
  | .err _ o' => o' = o
  | .panic => blen d < o ∨ tp

/-- The condition check panics on some item of the remaining input. -/
def CheckPanics (mt : List ι → Pat ι β → Nat → Option (Res Span)) (d : List ι) (o : Nat)
    (c : Cond ι β) : Prop :=
  ∃ l pr, dropB d o = some l ∧ pr ∈ indices 0 l ∧ check mt d o c pr = some .panic

theorem testItem_panic {mt : List ι → Pat ι β → Nat → Option (Res Span)} {d : List ι} {o : Nat}
    {u : Neu ι} {c : Cond ι β} {pr : Nat × ι} {l : List ι} (hl : dropB d o = some l)
    (hpr : pr ∈ indices 0 l) (h : testItem mt d o u c pr = some .panic) :
    CheckPanics mt d o c := by
  unfold testItem at h
  split at h
  · exact ⟨l, pr, hl, hpr, h⟩
  · cases h

theorem mem_indices {i : Nat} {l : List ι} {pr : Nat × ι} (h : pr ∈ indices i l) :
    ∃ a b, l = a ++ pr.2 :: b ∧ pr.1 = i + blen a := by
  induction l generalizing i with
  | nil => simp at h
  | cons x l ih =>
    simp at h
    rcases h with rfl | h
    · exact ⟨[], l, rfl, rfl⟩
    · obtain ⟨a, b, h1, h2⟩ := ih h
      exact ⟨x :: a, b, by simp [h1], by simp; omega⟩

theorem calcLength_run {i : Nat} {run rest : List ι} (_ : run ≠ []) :
    calcLength (some i) (if rest = [] then none else some (i + blen run)) (i + blen (run ++ rest))
      = some (blen run) := by
  unfold calcLength
  by_cases h : rest = []
  · subst h; simp
  · simp [h]

theorem calcLength_none (stop : Option Nat) (rem : Nat) : calcLength none stop rem = some 0 := rfl

variable (mt : List ι → Pat ι β → Nat → Option (Res Span))

theorem leaf_once (d : List ι) (u : Neu ι) (c : Cond ι β) (o : Nat) :
    Sat (onceParse mt d u c o) (LeafPost d o (CheckPanics mt d o c)) := by
  unfold onceParse
  refine sat_caseO (P := fun x => x = peek d o) (Sat.some rfl) (fun it hit => ?_)
    (fun e _ => Sat.some rfl) (fun h => .inl (peek_panic h.symm))
  obtain ⟨l, hl, rfl⟩ := peek_ok.mp hit.symm
  refine sat_remK (fun hle => ?_) (fun h => .inl h)
  have hlen := dropB_len hl
  cases l with
  | nil => exact Sat.some rfl
  | cons x l =>
    simp only [indices_cons]
    refine sat_caseO (P := fun y => testItem mt d o u c (0, x) = some y) (fun y hy => hy)
      (fun b _ => ?_) (fun _ _ => Sat.some rfl) (fun h => .inr (testItem_panic hl (by simp) h))
    refine sat_ite (fun _ => ?_) (fun _ => Sat.some rfl)
    rw [indices_head]
    have := calcLength_run (i := 0) (run := [x]) (rest := l) (by simp)
    simp only [blen_cons, blen_nil, Nat.add_zero, Nat.zero_add, List.singleton_append] at this hlen ⊢
    rw [show blen d - o = Item.size x + blen l by omega, this]
    exact Sat.some ⟨rfl, rfl, .inl ⟨[x], l, hl, by simp⟩⟩

theorem leaf_optU (d : List ι) (u : Neu ι) (c : Cond ι β) (o : Nat) :
    Sat (optUParse mt d u c o) (LeafPost d o (CheckPanics mt d o c)) := by
  unfold optUParse
  refine sat_remK (fun hle => ?_) (fun h => .inl h)
  refine sat_caseO (P := fun x => x = peek d o) (Sat.some rfl) (fun it hit => ?_)
    (fun e _ => Sat.some ⟨rfl, rfl, .inr rfl⟩) (fun h => .inl (peek_panic h.symm))
  obtain ⟨l, hl, rfl⟩ := peek_ok.mp hit.symm
  have hlen := dropB_len hl
  cases l with
  | nil => exact Sat.some ⟨rfl, rfl, .inr rfl⟩
  | cons x l =>
    simp only [indices_cons]
    refine sat_caseO (P := fun y => testItem mt d o u c (0, x) = some y) (fun y hy => hy)
      (fun b _ => ?_) (fun _ _ => Sat.some rfl) (fun h => .inr (testItem_panic hl (by simp) h))
    refine sat_ite (fun _ => ?_) (fun _ => Sat.some ⟨rfl, rfl, .inr rfl⟩)
    rw [indices_head]
    have := calcLength_run (i := 0) (run := [x]) (rest := l) (by simp)
    simp only [blen_cons, blen_nil, Nat.add_zero, Nat.zero_add, List.singleton_append] at this hlen ⊢
    rw [show blen d - o = Item.size x + blen l by omega, this]
    exact Sat.some ⟨rfl, rfl, .inl ⟨[x], l, hl, by simp⟩⟩

/-- The length computed after a scan is that of the accepted run. -/
theorem calcLength_scan {test : Nat × ι → Option (Out Bool)} {more : Nat → Bool} {l : List ι}
    {s : Scan ι} {run rest : List ι} (hp : ScanPost test more 0 none 0 l s run rest) :
    calcLength s.beg (s.stop.or (s.rest.head?.map (·.1))) (blen l) = some (blen run) := by
  rw [hp.next, hp.beg_eq, hp.split]
  by_cases hr : run = []
  · subst hr; rfl
  · have := calcLength_run (i := 0) (run := run) (rest := rest) hr
    simpa [hr] using this

theorem calcLength_scan' {test : Nat × ι → Option (Out Bool)} {l : List ι}
    {s : Scan ι} {run rest : List ι} {b : Nat}
    (hp : ScanPost test (fun _ => true) 0 none 0 l s run rest)
    (hb : s.beg = some b) : calcLength (some b) s.stop (blen l) = some (blen run) := by
  rw [← hb, hp.stop_eq (fun _ => rfl), hp.beg_eq, hp.split]
  by_cases hr : run = []
  · subst hr; rfl
  · have := calcLength_run (i := 0) (run := run) (rest := rest) hr
    simpa [hr] using this

theorem leaf_many0 (d : List ι) (u : Neu ι) (c : Cond ι β) (o : Nat) :
    Sat (many0Parse mt d u c o) (LeafPost d o (CheckPanics mt d o c)) := by
  unfold many0Parse
  refine sat_remK (fun hle => ?_) (fun h => .inl h)
  refine sat_caseO (P := fun x => x = peek d o) (Sat.some rfl) (fun it hit => ?_)
    (fun e _ => Sat.some ⟨rfl, rfl, .inr rfl⟩) (fun h => .inl (peek_panic h.symm))
  obtain ⟨l, hl, rfl⟩ := peek_ok.mp hit.symm
  have hlen := dropB_len hl
  refine sat_caseO (P := fun y => scan (testItem mt d o u c) (fun _ => true) 0 none (indices 0 l) = some y)
    (fun y hy => hy) (fun s hs => ?_) (fun _ _ => Sat.some rfl) (fun h => ?_)
  · obtain ⟨run, rest, hp⟩ := scan_ok hs
    split
    · exact Sat.some ⟨rfl, rfl, .inr rfl⟩
    · next b hb =>
      rw [show blen d - o = blen l by omega, calcLength_scan' hp hb]
      exact Sat.some ⟨rfl, rfl, .inl ⟨run, rest, by rw [hl, hp.split], rfl⟩⟩
  · obtain ⟨pr, hm, hpr⟩ := scan_err_panic h
    exact .inr (testItem_panic hl hm hpr)

theorem leaf_many1 (d : List ι) (u : Neu ι) (c : Cond ι β) (o : Nat) :
    Sat (many1Parse mt d u c o) (LeafPost d o (CheckPanics mt d o c)) := by
  unfold many1Parse
  refine sat_caseO (P := fun x => x = peek d o) (Sat.some rfl) (fun it hit => ?_)
    (fun e _ => Sat.some rfl) (fun h => .inl (peek_panic h.symm))
  obtain ⟨l, hl, rfl⟩ := peek_ok.mp hit.symm
  refine sat_remK (fun hle => ?_) (fun h => .inl h)
  have hlen := dropB_len hl
  refine sat_caseO (P := fun y => scan (testItem mt d o u c) (fun _ => true) 0 none (indices 0 l) = some y)
    (fun y hy => hy) (fun s hs => ?_) (fun _ _ => Sat.some rfl) (fun h => ?_)
  · obtain ⟨run, rest, hp⟩ := scan_ok hs
    split
    · exact Sat.some rfl
    · next b hb =>
      rw [show blen d - o = blen l by omega, calcLength_scan' hp hb]
      exact Sat.some ⟨rfl, rfl, .inl ⟨run, rest, by rw [hl, hp.split], rfl⟩⟩
  · obtain ⟨pr, hm, hpr⟩ := scan_err_panic h
    exact .inr (testItem_panic hl hm hpr)

theorem leaf_between (d : List ι) (m k : Nat) (u : Neu ι) (c : Cond ι β) (o : Nat) :
    Sat (betweenParse mt d m k u c o) (LeafPost d o (CheckPanics mt d o c)) := by
  unfold betweenParse
  refine sat_caseO (P := fun x => x = peek d o) (Sat.some rfl) (fun it hit => ?_)
    (fun e _ => Sat.some rfl) (fun h => .inl (peek_panic h.symm))
  obtain ⟨l, hl, rfl⟩ := peek_ok.mp hit.symm
  refine sat_remK (fun hle => ?_) (fun h => .inl h)
  have hlen := dropB_len hl
  refine sat_ite (fun _ => ?_) (fun _ => Sat.some rfl)
  refine sat_caseO (P := fun y => scan (testItem mt d o u c) _ 0 none (indices 0 l) = some y)
    (fun y hy => hy) (fun s hs => ?_) (fun _ _ => Sat.some rfl) (fun h => ?_)
  · obtain ⟨run, rest, hp⟩ := scan_ok hs
    refine sat_ite (fun _ => ?_) (fun _ => Sat.some rfl)
    rw [show blen d - o = blen l by omega, calcLength_scan hp]
    exact Sat.some ⟨rfl, rfl, .inl ⟨run, rest, by rw [hl, hp.split], rfl⟩⟩
  · obtain ⟨pr, hm, hpr⟩ := scan_err_panic h
    exact .inr (testItem_panic hl hm hpr)

theorem leaf_times (d : List ι) (r : CRange) (u : Neu ι) (c : Cond ι β) (o : Nat) :
    Sat (timesParse mt d r u c o) (LeafPost d o (CheckPanics mt d o c)) := by
  unfold timesParse
  refine sat_caseO (P := fun x => x = peek d o) (Sat.some rfl) (fun it hit => ?_)
    (fun e _ => Sat.some rfl) (fun h => .inl (peek_panic h.symm))
  obtain ⟨l, hl, rfl⟩ := peek_ok.mp hit.symm
  refine sat_remK (fun hle => ?_) (fun h => .inl h)
  have hlen := dropB_len hl
  refine sat_ite (fun _ => ?_) (fun _ => Sat.some rfl)
  refine sat_caseO (P := fun y => scan (testItem mt d o u c) _ 0 none (indices 0 l) = some y)
    (fun y hy => hy) (fun s hs => ?_) (fun _ _ => Sat.some rfl) (fun h => ?_)
  · obtain ⟨run, rest, hp⟩ := scan_ok hs
    refine sat_ite (fun _ => ?_) (fun _ => Sat.some rfl)
    rw [show blen d - o = blen l by omega, calcLength_scan hp]
    exact Sat.some ⟨rfl, rfl, .inl ⟨run, rest, by rw [hl, hp.split], rfl⟩⟩
  · obtain ⟨pr, hm, hpr⟩ := scan_err_panic h
    exact .inr (testItem_panic hl hm hpr)

theorem leaf_thenU (d : List ι) (u v : Neu ι) (c : Cond ι β) (o : Nat) :
    Sat (thenUParse mt d u v c o) (LeafPost d o (CheckPanics mt d o c)) := by
  unfold thenUParse
  refine sat_caseO (P := fun x => x = peek d o) (Sat.some rfl) (fun it hit => ?_)
    (fun e _ => Sat.some rfl) (fun h => .inl (peek_panic h.symm))
  obtain ⟨l, hl, rfl⟩ := peek_ok.mp hit.symm
  refine sat_remK (fun hle => ?_) (fun h => .inl h)
  have hlen := dropB_len hl
  refine sat_ite (fun _ => ?_) (fun _ => Sat.some rfl)
  match l, hl, hlen with
  | [], _, _ => exact Sat.some rfl
  | [_], _, _ => exact Sat.some rfl
  | x :: y :: l, hl, hlen =>
    simp only [indices_cons]
    refine sat_caseO (P := fun z => testItem mt d o u c (0, x) = some z) (fun z hz => hz)
      (fun b _ => ?_) (fun _ _ => Sat.some rfl) (fun h => .inr (testItem_panic hl (by simp) h))
    refine sat_ite (fun _ => ?_) (fun _ => Sat.some rfl)
    refine sat_caseO (P := fun z => testItem mt d o v c (0 + Item.size x, y) = some z)
      (fun z hz => hz) (fun b _ => ?_) (fun _ _ => Sat.some rfl)
      (fun h => .inr (testItem_panic hl (by simp) h))
    refine sat_ite (fun _ => ?_) (fun _ => Sat.some rfl)
    rw [indices_head]
    have := calcLength_run (i := 0) (run := [x, y]) (rest := l) (by simp)
    simp only [blen_cons, blen_nil, Nat.add_zero, Nat.zero_add, List.cons_append,
      List.nil_append] at this hlen ⊢
    rw [show blen d - o = Item.size x + (Item.size y + blen l) by omega, this]
    exact Sat.some ⟨rfl, rfl, .inl ⟨[x, y], l, hl, by simp⟩⟩

theorem leaf_lit (d : List ι) (w : List ι) (o : Nat) (tp : Prop) :
    Sat (litParse d w o) (LeafPost d o tp) := by
  unfold litParse
  refine sat_remK (fun hle => ?_) (fun h => .inl h)
  refine sat_ite (fun _ => ?_) (fun _ => Sat.some rfl)
  refine sat_caseO (P := fun x => x = origAt d o) (Sat.some rfl) (fun l hl => ?_)
    (fun e _ => Sat.some rfl) (fun h => .inl (origAt_panic h.symm))
  refine sat_ite (fun hp => ?_) (fun _ => Sat.some rfl)
  rw [List.isPrefixOf_iff_prefix] at hp
  obtain ⟨rest, hr⟩ := hp
  exact Sat.some ⟨rfl, rfl, .inl ⟨w, rest, by rw [hr]; exact origAt_ok.mp hl.symm, rfl⟩⟩

end Neure
