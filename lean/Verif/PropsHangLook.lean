import Verif.PropsHang

/-!
# C35: the only ways a match hangs, with pattern conditions

As `C35_hangs_iff`, for every pattern: a unit with a condition `set_cond(regex_cond(q))`
looks ahead with `q` at the items its unit accepts, on the text from that item on, and may
wait for that for ever.
-/

set_option linter.unusedSectionVars false
set_option linter.unusedSimpArgs false

namespace Neure

open Demo

namespace HangLook

open LeftRec (Skips)
open Hang (SkipHangs Step Stuck NoPatternCond)

variable {ι β σ : Type} [Item ι] {G : Rules ι β} {pol : Option (Pat ι β)} {d : List ι}

/-- `p` takes items that `u` accepts and at which `q` matches; it looks at a further one
after `k` of them if `on k`, and not at all if fewer than `bytes` bytes are left. -/
inductive TakesWith : Pat ι β → Neu ι → Pat ι β → (Nat → Prop) → Nat → Prop where
  | once (u q) : TakesWith (.once u (.regex q)) u q (fun k => k = 0) 0
  | optU (u q) : TakesWith (.optU u (.regex q)) u q (fun k => k = 0) 0
  | many0 (u q) : TakesWith (.many0 u (.regex q)) u q (fun _ => True) 0
  | many1 (u q) : TakesWith (.many1 u (.regex q)) u q (fun _ => True) 0
  | between (m n u q) : TakesWith (.between m n u (.regex q)) u q (fun k => k < n) (m * u.minLength)
  | times (r u q) : TakesWith (.times r u (.regex q)) u q (fun k => r.hi.allowsUpTo (k + 1)) (r.needed u.minLength)

/-- `q` matches on the text from the item at distance `i` of `o` on. -/
def Ahead (G : Rules ι β) (pol : Option (Pat ι β)) (d : List ι) (o : Nat) (q : Pat ι β) (i : Nat) : Prop :=
  ∃ d', origAt d (o + i) = .ok d' ∧ Matches G pol d' q 0

/-- Matching `p` at `o` comes to the point where it looks ahead with `q` on the text `d'`,
and waits for that. -/
inductive Looks (G : Rules ι β) (pol : Option (Pat ι β)) (d : List ι) :
    Pat ι β → Nat → List ι → Pat ι β → Prop where
  | item {p u q on bytes o before i x after d'} : TakesWith p u q on bytes →
      peek d o = .ok (before ++ (i, x) :: after) → bytes ≤ blen d - o →
      (∀ pr ∈ before, u.isMatch pr.2 = true ∧ Ahead G pol d o q pr.1) →
      (∀ k, k ≤ before.length → on k) → u.isMatch x = true → origAt d (o + i) = .ok d' →
      Looks G pol d p o d' q
  | first {u v q o i x snd after d'} : peek d o = .ok ((i, x) :: snd :: after) →
      u.minLength + v.minLength ≤ blen d - o → u.isMatch x = true → origAt d (o + i) = .ok d' →
      Looks G pol d (.thenU u v (.regex q)) o d' q
  | second {u v q o fst i x after d'} : peek d o = .ok (fst :: (i, x) :: after) →
      u.minLength + v.minLength ≤ blen d - o → u.isMatch fst.2 = true → Ahead G pol d o q fst.1 →
      v.isMatch x = true → origAt d (o + i) = .ok d' →
      Looks G pol d (.thenU u v (.regex q)) o d' q

/-- Parsing `p` at `o` of the text `d` comes to the point where it parses `q` at `o'` of the
text `d'`, and waits for it: on the same text, or looking ahead. -/
inductive LStep (G : Rules ι β) (pol : Option (Pat ι β)) :
    List ι → Pat ι β → Nat → List ι → Pat ι β → Nat → Prop where
  | same {d p o q o'} : Step G pol d p o q o' → LStep G pol d p o d q o'
  | look {d p o d' q o'} : Looks G pol d p o d' q → Skips G pol d' 0 o' → LStep G pol d p o d' q o'

/-- In finitely many steps. -/
inductive LSteps (G : Rules ι β) (pol : Option (Pat ι β)) :
    List ι → Pat ι β → Nat → List ι → Pat ι β → Nat → Prop where
  | here {d p o} : LSteps G pol d p o d p o
  | next {d p o d1 q o1 d2 r o2} : LStep G pol d p o d1 q o1 → LSteps G pol d1 q o1 d2 r o2 →
      LSteps G pol d p o d2 r o2

/-- `p` at `o` is an endless loop, or waits for a skip pattern that never returns. -/
def LStuck (G : Rules ι β) (pol : Option (Pat ι β)) (d : List ι) (p : Pat ι β) (o : Nat) : Prop :=
  Stuck G pol d p o ∨ ∃ d' q, Looks G pol d p o d' q ∧ SkipHangs G pol d' 0

/-! ## Lemmas -/

section Fuel

variable {n : Nat} {q : Pat ι β} {o : Nat}

theorem test_wait {u : Neu ι} {i : Nat} {x : ι} {d' : List ι} (hx : u.isMatch x = true)
    (ho : origAt d (o + i) = .ok d') {mt : List ι → Pat ι β → Nat → Option (Res Span)} (h : mt d' q 0 = none) :
    testItem mt d o u (.regex q) (i, x) = none := by
  simp only [testItem, hx, if_true, check, ho, h]

theorem test_ahead {u : Neu ι} {pr : Nat × ι} (hx : u.isMatch pr.2 = true) (ha : Ahead G pol d o q pr.1) :
    testItem (matWith (parse G n) pol) d o u (.regex q) pr = none ∨
    testItem (matWith (parse G n) pol) d o u (.regex q) pr = some (.ok true) := by
  obtain ⟨d', ho, s, o1, hr⟩ := ha
  simp only [testItem, hx, if_true, check, ho]
  rcases Hang.parse_or (n := n) hr with h' | h'
  · exact .inl (by rw [h'])
  · exact .inr (by rw [h'])

theorem scan_none {u : Neu ι} {more : Nat → Bool} {i : Nat} {x : ι} {d' : List ι} {after : List (Nat × ι)}
    (hx : u.isMatch x = true) (ho : origAt d (o + i) = .ok d') (h : matWith (parse G n) pol d' q 0 = none)
    (before : List (Nat × ι)) (hb : ∀ pr ∈ before, u.isMatch pr.2 = true ∧ Ahead G pol d o q pr.1)
    (cnt : Nat) (beg : Option Nat) (hm : ∀ k, k ≤ before.length → more (cnt + k) = true) :
    scan (testItem (matWith (parse G n) pol) d o u (.regex q)) more cnt beg (before ++ (i, x) :: after) = none := by
  induction before generalizing cnt beg with
  | nil =>
    have := hm 0 (Nat.le_refl _)
    simp only [Nat.add_zero] at this
    simp only [List.nil_append, scan, this, if_true, test_wait hx ho h]
  | cons pr before ih =>
    have := hm 0 (Nat.zero_le _)
    simp only [Nat.add_zero] at this
    obtain ⟨h1, h2⟩ := hb pr (List.mem_cons_self ..)
    simp only [List.cons_append, scan, this, if_true]
    rcases test_ahead (n := n) h1 h2 with h' | h'
    · rw [h']
    · rw [h']
      exact ih (fun pr h => hb pr (List.mem_cons_of_mem _ h)) _ _ fun k hk => by
        rw [show cnt + 1 + k = cnt + (k + 1) by omega]
        exact hm _ (by simp only [List.length_cons]; omega)

end Fuel

theorem peek_le {o : Nat} {it : List (Nat × ι)} (h : peek d o = .ok it) : o ≤ blen d := by
  obtain ⟨l, hl, _⟩ := peek_ok.mp h
  have := origAt_len (origAt_ok.mpr hl)
  omega

theorem looks_none {n : Nat} {p q : Pat ι β} {o : Nat} {d' : List ι} (hl : Looks G pol d p o d' q)
    (h : matWith (parse G n) pol d' q 0 = none) : parse G (n + 1) pol d p o = none := by
  cases hl with
  | item hp hpk hby hb hon hx ho =>
    have hle := peek_le hpk
    have one : ∀ {before : List (Nat × ι)}, (∀ k, k ≤ before.length → k = 0) → before = [] := fun {before} hk =>
      List.eq_nil_of_length_eq_zero (hk _ (Nat.le_refl _))
    cases hp
    · obtain rfl := one hon
      simp only [parse, step, onceParse, hpk, caseO, remK, hle, if_true, List.nil_append, test_wait hx ho h]
    · obtain rfl := one hon
      simp only [parse, step, optUParse, hpk, caseO, remK, hle, if_true, List.nil_append, test_wait hx ho h]
    · simp only [parse, step, many0Parse, hpk, caseO, remK, hle, if_true, scan_none (more := fun _ => true) hx ho h _ hb 0 none (fun _ _ => rfl)]
    · simp only [parse, step, many1Parse, hpk, caseO, remK, hle, if_true, scan_none (more := fun _ => true) hx ho h _ hb 0 none (fun _ _ => rfl)]
    · simp only [parse, step, betweenParse, hpk, caseO, remK, hle, if_true, ge_iff_le, hby,
        scan_none (more := fun cnt => decide (cnt < _)) hx ho h _ hb 0 none (fun k hk => by simpa using hon k hk)]
    · simp only [parse, step, timesParse, hpk, caseO, remK, hle, if_true, ge_iff_le, hby,
        scan_none (more := CRange.more _) hx ho h _ hb 0 none (fun k hk => by rw [Nat.zero_add, more_iff]; exact hon k hk)]
  | first hpk hby hx ho =>
    simp only [parse, step, thenUParse, hpk, caseO, remK, peek_le hpk, if_true, ge_iff_le, hby, test_wait hx ho h]
  | second hpk hby h1 h2 hx ho =>
    rcases test_ahead (n := n) h1 h2 with h' | h' <;>
      simp only [parse, step, thenUParse, hpk, caseO, remK, peek_le hpk, if_true, ge_iff_le, hby, h', test_wait hx ho h]

/-! ## What a hanging look-ahead waits for -/

theorem test_hangs {u : Neu ι} {q : Pat ι β} {o : Nat} {pr : Nat × ι}
    (h : testItem (matL G pol) d o u (.regex q) pr = none) :
    u.isMatch pr.2 = true ∧ ∃ d', origAt d (o + pr.1) = .ok d' ∧ matL G pol d' q 0 = none := by
  unfold testItem at h
  split at h
  · next hx =>
    refine ⟨hx, ?_⟩
    simp only [check] at h
    cases ho : origAt d (o + pr.1) with
    | panic => rw [ho] at h; cases h
    | err e => rw [ho] at h; cases h
    | ok d' =>
      rw [ho] at h
      simp only at h
      cases hm : matL G pol d' q 0 with
      | none => exact ⟨d', rfl, hm⟩
      | some r => rw [hm] at h; cases r <;> cases h
  · cases h

theorem test_true {u : Neu ι} {q : Pat ι β} {o : Nat} {pr : Nat × ι}
    (h : testItem (matL G pol) d o u (.regex q) pr = some (.ok true)) :
    u.isMatch pr.2 = true ∧ Ahead G pol d o q pr.1 := by
  unfold testItem at h
  split at h
  · next hx =>
    refine ⟨hx, ?_⟩
    simp only [check] at h
    cases ho : origAt d (o + pr.1) with
    | panic => rw [ho] at h; cases h
    | err e => rw [ho] at h; cases h
    | ok d' =>
      rw [ho] at h
      simp only at h
      cases hm : matL G pol d' q 0 with
      | none => rw [hm] at h; cases h
      | some r =>
        rw [hm] at h
        cases r with
        | ok s o1 => exact ⟨d', ho, s, o1, runs_iff.mpr hm⟩
        | err e o1 => cases h
        | panic => cases h
  · cases h

theorem scan_hangs {u : Neu ι} {q : Pat ι β} {o : Nat} {more : Nat → Bool} {it : List (Nat × ι)} {cnt : Nat}
    {beg : Option Nat} (h : scan (testItem (matL G pol) d o u (.regex q)) more cnt beg it = none) :
    ∃ before i x after d', it = before ++ (i, x) :: after ∧
      (∀ pr ∈ before, u.isMatch pr.2 = true ∧ Ahead G pol d o q pr.1) ∧
      (∀ k, k ≤ before.length → more (cnt + k) = true) ∧ u.isMatch x = true ∧
      origAt d (o + i) = .ok d' ∧ matL G pol d' q 0 = none := by
  induction it generalizing cnt beg with
  | nil => simp [scan] at h
  | cons pr it ih =>
    simp only [scan] at h
    split at h
    · next hm =>
      cases ht : testItem (matL G pol) d o u (.regex q) pr with
      | none =>
        obtain ⟨hx, d', ho, hn⟩ := test_hangs ht
        exact ⟨[], pr.1, pr.2, it, d', rfl, by simp, fun k hk => by
          have : k = 0 := by simpa using hk
          subst this; exact hm, hx, ho, hn⟩
      | some r =>
        rw [ht] at h
        cases r with
        | panic => cases h
        | err e => cases h
        | ok b =>
          cases b with
          | false => cases h
          | true =>
            simp only at h
            obtain ⟨before, i, x, after, d', rfl, hb, hk, hx, ho, hn⟩ := ih h
            refine ⟨pr :: before, i, x, after, d', rfl, fun pr' h' => ?_, fun k h' => ?_, hx, ho, hn⟩
            · rcases List.mem_cons.mp h' with rfl | h'
              · exact test_true ht
              · exact hb pr' h'
            · cases k with
              | zero => exact hm
              | succ k =>
                rw [show cnt + (k + 1) = cnt + 1 + k by omega]
                exact hk k (by simpa using h')
    · cases h

/-- The unit patterns return if their look-aheads do. -/
theorem unit_returns {p : Pat ι β} {o : Nat} (hc : ¬ NoPatternCond p)
    (h : ∀ d' q, Looks G pol d p o d' q → matL G pol d' q 0 ≠ none) : parseL G pol d p o ≠ none := by
  have has : ∀ c : Cond ι β, ¬ (∀ q, ¬ c.Has q) → ∃ q, c = .regex q := by
    intro c hc
    cases c with
    | regex q => exact ⟨q, rfl⟩
    | empty => exact absurd (fun q hq => hq) hc
    | fn f => exact absurd (fun q hq => hq) hc
  cases p <;> first | exact absurd trivial hc | skip
  case once u c =>
    obtain ⟨q, rfl⟩ := has c hc
    rw [parseL_once]
    refine caseO_ne (by simp) (fun it hit => remK_ne fun _ => ?_) (fun _ _ => by simp)
    have hit : peek d o = .ok it := by simpa using hit
    cases it with
    | nil => simp
    | cons pr it =>
      refine caseO_ne (fun ht => ?_) (fun b _ => ?_) (fun _ _ => by simp)
      · obtain ⟨hx, d', ho, hn⟩ := test_hangs ht
        exact h d' q (.item (before := []) (.once u q) hit (Nat.zero_le _) (by simp)
          (fun k hk => by simpa using hk) hx ho) hn
      · split
        · exact spanK_ne _ _
        · simp
  case optU u c =>
    obtain ⟨q, rfl⟩ := has c hc
    rw [parseL_optU]
    refine remK_ne fun _ => caseO_ne (by simp) (fun it hit => ?_) (fun _ _ => by simp)
    have hit : peek d o = .ok it := by simpa using hit
    cases it with
    | nil => simp
    | cons pr it =>
      refine caseO_ne (fun ht => ?_) (fun b _ => ?_) (fun _ _ => by simp)
      · obtain ⟨hx, d', ho, hn⟩ := test_hangs ht
        exact h d' q (.item (before := []) (.optU u q) hit (Nat.zero_le _) (by simp)
          (fun k hk => by simpa using hk) hx ho) hn
      · split
        · exact spanK_ne _ _
        · simp
  case many0 u c =>
    obtain ⟨q, rfl⟩ := has c hc
    rw [parseL_many0]
    refine remK_ne fun _ => caseO_ne (by simp) (fun it hit => ?_) (fun _ _ => by simp)
    have hit : peek d o = .ok it := by simpa using hit
    refine caseO_ne (fun ht => ?_) (fun s _ => ?_) (fun _ _ => by simp)
    · obtain ⟨before, i, x, after, d', rfl, hb, hk, hx, ho, hn⟩ := scan_hangs ht
      exact h d' q (.item (.many0 u q) hit (Nat.zero_le _) hb (fun _ _ => trivial) hx ho) hn
    · split
      · simp
      · exact spanK_ne _ _
  case many1 u c =>
    obtain ⟨q, rfl⟩ := has c hc
    rw [parseL_many1]
    refine caseO_ne (by simp) (fun it hit => remK_ne fun _ => ?_) (fun _ _ => by simp)
    have hit : peek d o = .ok it := by simpa using hit
    refine caseO_ne (fun ht => ?_) (fun s _ => ?_) (fun _ _ => by simp)
    · obtain ⟨before, i, x, after, d', rfl, hb, hk, hx, ho, hn⟩ := scan_hangs ht
      exact h d' q (.item (.many1 u q) hit (Nat.zero_le _) hb (fun _ _ => trivial) hx ho) hn
    · split
      · simp
      · exact spanK_ne _ _
  case between m n u c =>
    obtain ⟨q, rfl⟩ := has c hc
    rw [parseL_between]
    refine caseO_ne (by simp) (fun it hit => ?_) (fun _ _ => by simp)
    have hit : peek d o = .ok it := by simpa using hit
    simp only [remK, peek_le hit, if_true]
    split
    · next hby =>
      refine caseO_ne (fun ht => ?_) (fun s _ => ?_) (fun _ _ => by simp)
      · obtain ⟨before, i, x, after, d', rfl, hb, hk, hx, ho, hn⟩ := scan_hangs ht
        exact h d' q (.item (.between m n u q) hit hby hb (fun k h' => by simpa using hk k h') hx ho) hn
      · split
        · exact spanK_ne _ _
        · simp
    · simp
  case times r u c =>
    obtain ⟨q, rfl⟩ := has c hc
    rw [parseL_times]
    refine caseO_ne (by simp) (fun it hit => ?_) (fun _ _ => by simp)
    have hit : peek d o = .ok it := by simpa using hit
    simp only [remK, peek_le hit, if_true]
    split
    · next hby =>
      refine caseO_ne (fun ht => ?_) (fun s _ => ?_) (fun _ _ => by simp)
      · obtain ⟨before, i, x, after, d', rfl, hb, hk, hx, ho, hn⟩ := scan_hangs ht
        exact h d' q (.item (.times r u q) hit hby hb
          (fun k h' => more_iff.mp (by have := hk k h'; rwa [Nat.zero_add] at this)) hx ho) hn
      · split
        · exact spanK_ne _ _
        · simp
    · simp
  case thenU u v c =>
    obtain ⟨q, rfl⟩ := has c hc
    rw [parseL_thenU]
    refine caseO_ne (by simp) (fun it hit => ?_) (fun _ _ => by simp)
    have hit : peek d o = .ok it := by simpa using hit
    simp only [remK, peek_le hit, if_true]
    split
    · next hby =>
      split
      · refine caseO_ne (fun ht => ?_) (fun b hb => ?_) (fun _ _ => by simp)
        · obtain ⟨hx, d', ho, hn⟩ := test_hangs ht
          exact h d' q (.first hit hby hx ho) hn
        · cases b with
          | false => simp
          | true =>
            simp only [if_true]
            refine caseO_ne (fun ht => ?_) (fun b' _ => ?_) (fun _ _ => by simp)
            · obtain ⟨hx, d', ho, hn⟩ := test_hangs ht
              exact h d' q (.second hit hby (test_true hb).1 (test_true hb).2 hx ho) hn
            · split
              · exact spanK_ne _ _
              · simp
      · simp
    · simp

theorem lstep_none {n : Nat} {p q : Pat ι β} {d d' : List ι} {o o' : Nat} (ha : LStep G pol d p o d' q o')
    (h : parse G n pol d' q o' = none) : parse G (n + 1) pol d p o = none := by
  cases ha with
  | same hs => exact Hang.step_none hs h
  | look hl hs => exact looks_none hl (LeftRec.matWith_none h hs)

theorem lsteps_snoc {d d1 d2 : List ι} {p q r : Pat ι β} {o o1 o2 : Nat} (h : LSteps G pol d p o d1 q o1)
    (h' : LStep G pol d1 q o1 d2 r o2) : LSteps G pol d p o d2 r o2 := by
  induction h with
  | here => exact .next h' .here
  | next h1 _ ih => exact .next h1 (ih h')

theorem lsteps_hangs {d d' : List ι} {p q : Pat ι β} {o o' : Nat} (ha : LSteps G pol d p o d' q o')
    (h : parseL G pol d' q o' = none) : parseL G pol d p o = none := by
  induction ha with
  | here => exact h
  | next h1 _ ih =>
    refine Hang.none_of_parse fun n => ?_
    cases n with
    | zero => rfl
    | succ n => exact lstep_none h1 (Hang.parse_of_none (ih h) n)

theorem lstuck_none {p : Pat ι β} {o : Nat} (h : LStuck G pol d p o) : parseL G pol d p o = none := by
  rcases h with h | ⟨d', q, hl, hs⟩
  · exact Hang.stuck_none h
  · refine Hang.none_of_parse fun n => ?_
    cases n with
    | zero => rfl
    | succ n =>
      refine looks_none hl ?_
      obtain ⟨w, rfl, hw⟩ := hs
      simp only [matWith, Hang.parse_of_none (Hang.never_iff.mp hw) n, caseR]

end HangLook

variable {ι β σ : Type} [Item ι] {G : Rules ι β} {pol : Option (Pat ι β)} {d : List ι}

open HangLook in
/-- **C35, the only ways to hang, for every pattern.** A match never returns if and only if
it waits for a match that waits for a match and so on without end (on the same text, or
looking ahead on a rest of it), or it comes in finitely many such steps to a loop all of
whose rounds succeed for ever, or to a skip pattern that never returns. -/
theorem C35_every_hang_iff {p : Pat ι β} {o : Nat} :
    (∀ r, ¬ Parses G pol d p o r) ↔
      (∃ (ds : Nat → List ι) (ps : Nat → Pat ι β) (os : Nat → Nat), ds 0 = d ∧ ps 0 = p ∧ os 0 = o ∧
        ∀ n, LStep G pol (ds n) (ps n) (os n) (ds (n + 1)) (ps (n + 1)) (os (n + 1))) ∨
      ∃ d' q o', LSteps G pol d p o d' q o' ∧ LStuck G pol d' q o' := by
  rw [Hang.never_iff]
  constructor
  · intro hn
    refine Classical.or_iff_not_imp_right.mpr fun hno => ?_
    let S := { c : List ι × Pat ι β × Nat //
      LSteps G pol d p o c.1 c.2.1 c.2.2 ∧ parseL G pol c.1 c.2.1 c.2.2 = none }
    have step : ∀ c : S, ∃ c' : S, LStep G pol c.1.1 c.1.2.1 c.1.2.2 c'.1.1 c'.1.2.1 c'.1.2.2 := by
      rintro ⟨⟨d1, q, o'⟩, ha, hq⟩
      refine Classical.byContradiction fun hc => ?_
      have go : ∀ d2 r o2, LStep G pol d1 q o' d2 r o2 → parseL G pol d2 r o2 ≠ none := fun d2 r o2 hw hm =>
        hc ⟨⟨(d2, r, o2), lsteps_snoc ha hw, hm⟩, hw⟩
      by_cases hp : Hang.NoPatternCond q
      · refine Hang.returns hp (fun r o2 hw hm => ?_)
          (fun i r hi hG => by subst hi; exact go _ _ _ (.same (.cell hG)))
          (fun he => hno ⟨d1, q, o', ha, .inl (.inl he)⟩) hq
        rcases Hang.call_hangs.mp hm with hs | ⟨o3, hs, hm⟩
        · exact hno ⟨d1, q, o', ha, .inl (.inr ⟨r, o2, hw, hs⟩)⟩
        · exact go _ _ _ (.same (.call hw hs)) hm
      · refine unit_returns hp (fun d2 r hw hm => ?_) hq
        rcases Hang.call_hangs.mp hm with hs | ⟨o3, hs, hm⟩
        · exact hno ⟨d1, q, o', ha, .inr ⟨d2, r, hw, hs⟩⟩
        · exact go _ _ _ (.look hw hs) hm
    let f : Nat → S := fun n => Nat.rec ⟨(d, p, o), .here, hn⟩ (fun _ c => Classical.choose (step c)) n
    exact ⟨fun n => (f n).1.1, fun n => (f n).1.2.1, fun n => (f n).1.2.2, rfl, rfl, rfl,
      fun n => Classical.choose_spec (step (f n))⟩
  · rintro (⟨ds, ps, os, rfl, rfl, rfl, h⟩ | ⟨d', q, o', ha, he⟩)
    · have : ∀ n k, parse G n pol (ds k) (ps k) (os k) = none := by
        intro n
        induction n with
        | zero => intro k; rfl
        | succ n ih => exact fun k => lstep_none (h k) (ih (k + 1))
      exact Hang.none_of_parse fun n => this n 0
    · exact lsteps_hangs ha (lstuck_none he)

/-! Both are met behind a condition. -/
section

open HangLook

private def letters : Neu Char := .pred fun _ => true

/-- A unit whose condition is a rule that begins with that unit: the look-ahead looks ahead
at the same place. -/
private def lookRule : Rules Char Unit := fun i =>
  if i = 0 then some (.many1 letters (.regex (.cell 0))) else none

example : ∀ r, ¬ Parses lookRule none "ab".toList (.cell 0) 0 r := by
  refine C35_every_hang_iff.mpr (.inl ⟨fun _ => "ab".toList,
    fun n => if n % 2 = 0 then .cell 0 else .many1 letters (.regex (.cell 0)), fun _ => 0, rfl, rfl, rfl, fun n => ?_⟩)
  by_cases h : n % 2 = 0
  · have h' : ¬ (n + 1) % 2 = 0 := by omega
    simp only [if_pos h, if_neg h']; exact .same (.cell rfl)
  · have h' : (n + 1) % 2 = 0 := by omega
    simp only [if_neg h, if_pos h']
    exact .look (.item (before := []) (i := 0) (x := 'a') (.many1 _ _) rfl (Nat.zero_le _) (by simp)
      (fun _ _ => trivial) rfl rfl) rfl

private theorem emptiesHere {G : Rules Char Unit} {d : List Char} (k : Nat) :
    Applied G none d .empty k ⟨0, 0⟩ 0 ⟨0, 0⟩ 0 := by
  induction k with
  | zero => exact .zero _ _
  | succ k ih => exact .succ ⟨1, rfl⟩ (hull_iff.mpr (by simp [Span.addAssign])) ih

/-- A look-ahead that is an endless loop, reached at the second item: the first is taken
because the choice matches there. -/
example : ∀ r, ¬ Parses (G0 (β := Unit)) none "ab".toList
    (.between 1 3 letters (.regex (.or (.lit ['a']) (.collect .empty 0)))) 0 r := by
  refine C35_every_hang_iff.mpr (.inr ⟨['b'], .collect .empty 0, 0,
    .next (.look (.item (before := [(0, 'a')]) (i := 1) (x := 'b') (.between 1 3 _ _) rfl (by decide) ?_
      (fun k hk => ?_) rfl rfl) rfl)
      (.next (.same (.call (.or2 (e := .literal) (o1 := 0) ⟨1, rfl⟩) rfl)) .here),
    .inl (.inl (.rounds (.collect _ _) fun k => ⟨trivial, _, _, emptiesHere k⟩))⟩)
  · intro pr hpr
    obtain rfl := List.mem_singleton.mp hpr
    exact ⟨rfl, _, rfl, ⟨0, 1⟩, 1, 2, rfl⟩
  · have : k ≤ 1 := hk
    show k < 3
    omega

end

end Neure
