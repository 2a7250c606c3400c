import Verif.Prefix
import Verif.PropsUnit
/-!
# C42: the stateful unit `Prefix` and its thread-safe variant
-/

namespace Neure

set_option linter.unusedSectionVars false
set_option linter.unusedSimpArgs false

variable {ι β : Type} [Item ι] {d : List ι}

/-! ## Specification -/

/-- The first `n` items of the run satisfy `p`, the later ones `u`. -/
def FollowsPrefix (n : Nat) (p u : ι → Bool) (run : List ι) : Prop :=
  ∀ (i : Nat) x, run[i]? = some x → (i < n → p x = true) ∧ (n ≤ i → u x = true)

/-- `run` is the longest run at `o` that follows the prefix rule and whose length
is allowed by `P`; `rest` is what comes after it. -/
def LongestPrefixed (d : List ι) (o n : Nat) (p u : ι → Bool) (P : Nat → Prop) (run rest : List ι) : Prop :=
  (∃ pre, d = pre ++ run ++ rest ∧ blen pre = o) ∧ FollowsPrefix n p u run ∧
  (∀ k, 1 ≤ k → k ≤ run.length → P k) ∧
  (∀ y rest', rest = y :: rest' → P (run.length + 1) → ¬ FollowsPrefix n p u (run ++ [y]))

/-! ## Sequential use -/

theorem prefixCalls_length (p u : ι → Bool) (s : PrefixState) (l : List ι) :
    (prefixCalls p u s l).1.length = l.length := by
  induction l generalizing s with
  | nil => rfl
  | cons x l ih => simp [prefixCalls, ih]

theorem prefixCalls_false (p u : ι → Bool) (c : Nat) (l : List ι) :
    prefixCalls p u ⟨c, false⟩ l = (List.replicate l.length false, ⟨c, false⟩) := by
  induction l with
  | nil => rfl
  | cons x l ih => simp [prefixCalls, prefixIsMatch, ih, List.replicate_succ]

theorem prefixCalls_true (p u : ι → Bool) (n : Nat) (l : List ι) (i : Nat) (hi : i < l.length) :
    (prefixCalls p u ⟨n, true⟩ l).1[i]? = some true ↔
      (∀ j x, j < n → j ≤ i → l[j]? = some x → p x = true) ∧
      (∀ x, n ≤ i → l[i]? = some x → u x = true) := by
  induction l generalizing n i with
  | nil => simp at hi
  | cons y l ih =>
    cases n with
    | zero =>
      cases i with
      | zero => simp [prefixCalls, prefixIsMatch]
      | succ i =>
        have := ih 0 i (by simpa using hi)
        simp [prefixCalls, prefixIsMatch] at this ⊢
        exact this
    | succ n =>
      cases hp : p y with
      | false =>
        simp only [prefixCalls, prefixIsMatch, hp, Bool.and_true, if_true, Nat.add_one_ne_zero,
          if_false, prefixCalls_false]
        constructor
        · intro h
          cases i with
          | zero => simp at h
          | succ i =>
            simp [List.getElem?_replicate] at h
        · intro ⟨h, _⟩
          have := h 0 y (by omega) (by omega) (by simp)
          simp [hp] at this
      | true =>
        simp only [prefixCalls, prefixIsMatch, hp, Bool.and_true, if_true, Nat.add_one_ne_zero,
          if_false, Nat.add_sub_cancel]
        cases i with
        | zero =>
          simp only [List.getElem?_cons_zero, true_iff]
          refine ⟨?_, fun x h => by omega⟩
          intro j x _ hj hx
          obtain rfl : j = 0 := by omega
          simp at hx; rw [← hx]; exact hp
        | succ i =>
          rw [List.getElem?_cons_succ, ih n i (by simpa using hi)]
          constructor
          · rintro ⟨h1, h2⟩
            refine ⟨?_, fun x hn hx => h2 x (by omega) (by simpa using hx)⟩
            intro j x hj hji hx
            cases j with
            | zero => simp at hx; rw [← hx]; exact hp
            | succ j => exact h1 j x (by omega) (by omega) (by simpa using hx)
          · rintro ⟨h1, h2⟩
            exact ⟨fun j x hj hji hx => h1 (j + 1) x (by omega) (by omega) (by simpa using hx),
              fun x hn hx => h2 x (by omega) (by simpa using hx)⟩

/-- **C42 (calls).** A fresh `prefix_cnt(p, n, u)` is asked about the items `l` one
after the other.  The `i`-th answer is `true` exactly if all of the first `n`
items seen so far satisfy `p` and, from the `n`-th item on, the item itself
satisfies `u`. -/
theorem C42_calls (p u : ι → Bool) (n : Nat) (l : List ι) (i : Nat) (hi : i < l.length) :
    (prefixCalls p u (.new n) l).1[i]? = some true ↔
      (∀ j x, j < n → j ≤ i → l[j]? = some x → p x = true) ∧
      (∀ x, n ≤ i → l[i]? = some x → u x = true) :=
  prefixCalls_true p u n l i hi

/-- **C42 (rejection is final).** After one rejected prefix item every later answer
is `false`, whatever the items. -/
theorem C42_rejection_is_final (p u : ι → Bool) (n : Nat) (l : List ι) (j i : Nat) (x : ι)
    (hj : j < n) (hji : j ≤ i) (hi : i < l.length) (hx : l[j]? = some x) (hp : p x = false) :
    (prefixCalls p u (.new n) l).1[i]? = some false := by
  have h := C42_calls p u n l i hi
  have hl : i < (prefixCalls p u (.new n) l).1.length := by rw [prefixCalls_length]; exact hi
  rw [List.getElem?_eq_getElem hl] at h ⊢
  cases hv : (prefixCalls p u (.new n) l).1[i] with
  | false => rfl
  | true =>
    rw [hv] at h
    have := (h.mp rfl).1 j x hj hji hx
    simp [hp] at this

example : (prefixCalls (· == 'a') (· == 'b') (.new 2) ['a', 'a', 'b', 'c', 'b']).1 =
    [true, true, true, false, true] := by decide
example : (prefixCalls (· == 'a') (· == 'b') (.new 2) ['a', 'b', 'a', 'b']).1 =
    [true, false, false, false] := by decide

/-! ## In a unit pattern -/

theorem followsPrefix_nil (n : Nat) (p u : ι → Bool) : FollowsPrefix n p u [] := by
  intro i x h; simp at h

theorem followsPrefix_snoc {n : Nat} {p u : ι → Bool} {run : List ι} {y : ι} :
    FollowsPrefix n p u (run ++ [y]) ↔ FollowsPrefix n p u run ∧
      (if run.length < n then p y else u y) = true := by
  constructor
  · intro h
    refine ⟨fun i x hx => h i x ?_, ?_⟩
    · rw [List.getElem?_append_left]; exact hx
      exact (List.getElem?_eq_some_iff.mp hx).1
    · have := h run.length y (by simp)
      split
      · exact this.1 ‹_›
      · exact this.2 (by omega)
  · rintro ⟨h1, h2⟩ i x hx
    by_cases hi : i < run.length
    · rw [List.getElem?_append_left hi] at hx; exact h1 i x hx
    · rw [List.getElem?_append_right (by omega)] at hx
      obtain ⟨h3, h4⟩ := List.getElem?_eq_some_iff.mp hx
      obtain rfl : i = run.length := by simp at h3; omega
      simp at h4; subst h4
      split at h2
      · exact ⟨fun _ => h2, fun _ => by omega⟩
      · exact ⟨fun _ => by omega, fun _ => h2⟩

/-- The scanning loop finds the longest run that follows the prefix rule. -/
theorem scanP_spec (p u : ι → Bool) (n : Nat) (more : Nat → Bool) (post run : List ι) (beg : Option Nat)
    (hrun : FollowsPrefix n p u run) (hm : ∀ k, 1 ≤ k → k ≤ run.length → more (k - 1) = true)
    (hbeg : beg = if run = [] then none else some 0) :
    ∃ run' rest, post = run' ++ rest ∧ FollowsPrefix n p u (run ++ run') ∧
      (∀ k, 1 ≤ k → k ≤ (run ++ run').length → more (k - 1) = true) ∧
      (∀ y rest', rest = y :: rest' → more (run ++ run').length = true →
        ¬ FollowsPrefix n p u (run ++ run' ++ [y])) ∧
      (scanP p u more ⟨n - run.length, true⟩ run.length beg (indices (blen run) post)).cnt =
        (run ++ run').length ∧
      (scanP p u more ⟨n - run.length, true⟩ run.length beg (indices (blen run) post)).beg =
        (if run ++ run' = [] then none else some 0) ∧
      ((scanP p u more ⟨n - run.length, true⟩ run.length beg (indices (blen run) post)).stop.or
        ((scanP p u more ⟨n - run.length, true⟩ run.length beg (indices (blen run) post)).rest.head?.map (·.1))) =
        (if rest = [] then none else some (blen (run ++ run'))) ∧
      ((∀ k, more k = true) →
        (scanP p u more ⟨n - run.length, true⟩ run.length beg (indices (blen run) post)).stop =
        (if rest = [] then none else some (blen (run ++ run')))) := by
  induction post generalizing run beg with
  | nil =>
    refine ⟨[], [], rfl, by simpa using hrun, by simpa using hm, by simp, ?_⟩
    simp [indices, scanP, hbeg]
  | cons y post ih =>
    simp only [indices, scanP]
    cases hmo : more run.length with
    | false =>
      refine ⟨[], y :: post, rfl, by simpa using hrun, by simpa using hm, ?_, ?_⟩
      · intro _ _ _ h; simp [hmo] at h
      · simp [hmo, hbeg]
        exact ⟨_, hmo⟩
    | true =>
      have key : (prefixIsMatch p u ⟨n - run.length, true⟩ y).1 =
          (if run.length < n then p y else u y) := by
        simp only [prefixIsMatch]
        by_cases h : run.length < n
        · rw [if_pos trivial, if_neg (by omega), if_pos h]; simp
        · rw [if_pos trivial, if_pos (by omega), if_neg h]; simp
      cases hc : (if run.length < n then p y else u y) with
      | false =>
        refine ⟨[], y :: post, rfl, by simpa using hrun, by simpa using hm, ?_, ?_⟩
        · rintro y' _ he _ h
          injection he with he _
          subst he
          rw [List.append_nil, followsPrefix_snoc, hc] at h
          simp at h
        · simp [key, hc, hbeg]
      | true =>
        have st : (prefixIsMatch p u ⟨n - run.length, true⟩ y).2 =
            ⟨n - (run ++ [y]).length, true⟩ := by
          simp only [prefixIsMatch, if_true, List.length_append, List.length_cons, List.length_nil]
          by_cases h : run.length < n
          · rw [if_pos h] at hc
            rw [if_neg (by omega), hc]; simp; omega
          · rw [if_pos (by omega)]; simp; omega
        have hf : FollowsPrefix n p u (run ++ [y]) := followsPrefix_snoc.mpr ⟨hrun, hc⟩
        obtain ⟨run', rest, h1, h2, h3, h4, h5, h6, h7, h8⟩ := ih (run ++ [y]) (beg.or (some (blen run))) hf
          (by
            intro k hk hk2
            simp at hk2
            by_cases hkk : k = run.length + 1
            · subst hkk; simpa using hmo
            · exact hm k hk (by omega))
          (by
            rw [hbeg]
            cases run with
            | nil => simp
            | cons => simp)
        have e1 : run ++ [y] ++ run' = run ++ y :: run' := by simp
        have e2 : blen (run ++ [y]) = blen run + Item.size y := by simp [blen_append]
        rw [e1] at h2 h3 h4 h5 h6 h7 h8
        rw [e2, ← st, List.length_append, List.length_singleton] at h5 h6 h7 h8
        refine ⟨y :: run', rest, by simp [h1], h2, h3, h4, ?_⟩
        simp only [key, hc, if_true]
        exact ⟨h5, h6, h7, h8⟩

theorem LongestPrefixed.unique {o n : Nat} {p u : ι → Bool} {P : Nat → Prop}
    {run rest run' rest' : List ι}
    (h : LongestPrefixed d o n p u P run rest) (h' : LongestPrefixed d o n p u P run' rest') :
    run = run' ∧ rest = rest' := by
  obtain ⟨⟨pre, h1, h2⟩, h3, h4, h5⟩ := h
  obtain ⟨⟨pre', h1', h2'⟩, h3', h4', h5'⟩ := h'
  have e : run ++ rest = run' ++ rest' := by
    have a := dropB_append (a := pre) (b := run ++ rest)
    have b := dropB_append (a := pre') (b := run' ++ rest')
    rw [h2, ← List.append_assoc, ← h1] at a
    rw [h2', ← List.append_assoc, ← h1'] at b
    rw [a] at b
    exact Option.some.inj b
  have aux : ∀ {r1 s1 r2 s2 : List ι}, r1 ++ s1 = r2 ++ s2 → FollowsPrefix n p u r2 →
      (∀ k, 1 ≤ k → k ≤ r2.length → P k) →
      (∀ y s', s1 = y :: s' → P (r1.length + 1) → ¬ FollowsPrefix n p u (r1 ++ [y])) →
      r2.length ≤ r1.length := by
    intro r1 s1 r2 s2 e hf hP hl
    refine Nat.le_of_not_lt fun hlt => ?_
    obtain ⟨t, rfl⟩ : ∃ t, r2 = r1 ++ t := by
      refine ⟨r2.drop r1.length, ?_⟩
      have := congrArg (List.take r1.length) e
      rw [List.take_left, List.take_append_of_le_length (by omega)] at this
      rw [this, List.length_take, Nat.min_eq_left (by omega)]
      exact (List.take_append_drop _ _).symm
    cases t with
    | nil => simp at hlt
    | cons y t =>
      rw [List.append_assoc] at e
      have e := List.append_cancel_left e
      refine hl y (t ++ s2) (by simpa using e) (hP _ (by omega) (by simp)) ?_
      intro i x hx
      refine hf i x ?_
      have hi := (List.getElem?_eq_some_iff.mp hx).1
      rw [show r1 ++ y :: t = (r1 ++ [y]) ++ t by simp, List.getElem?_append_left hi]
      exact hx
  have l1 := aux e h3' h4' h5
  have l2 := aux e.symm h3 h4 h5'
  exact List.append_inj e (by omega)

theorem scanP_top (p u : ι → Bool) (n : Nat) (more : Nat → Bool) {post : List ι} {o : Nat}
    (hd : dropB d o = some post) :
    ∃ run rest, LongestPrefixed d o n p u (fun k => more (k - 1) = true) run rest ∧
      post = run ++ rest ∧
      (scanP p u more (.new n) 0 none (indices 0 post)).cnt = run.length ∧
      (scanP p u more (.new n) 0 none (indices 0 post)).beg = (if run = [] then none else some 0) ∧
      ((scanP p u more (.new n) 0 none (indices 0 post)).stop.or
        ((scanP p u more (.new n) 0 none (indices 0 post)).rest.head?.map (·.1))) =
        (if rest = [] then none else some (blen run)) ∧
      ((∀ k, more k = true) → (scanP p u more (.new n) 0 none (indices 0 post)).stop =
        (if rest = [] then none else some (blen run))) := by
  obtain ⟨run, rest, h1, h2, h3, h4, h5, h6, h7, h8⟩ :=
    scanP_spec p u n more post [] none (followsPrefix_nil n p u)
      (by intro k h1 h2; simp at h2; omega) (by simp)
  obtain ⟨pre, e1, e2⟩ := dropB_eq_some.mp hd
  simp only [List.nil_append, List.length_nil, Nat.sub_zero, blen_nil] at *
  exact ⟨run, rest, ⟨⟨pre, by rw [e1, h1, List.append_assoc], e2⟩, h2, h3, h4⟩, h1, h5, h6, h7, h8⟩

/-- **C42 (`many0`).** From a valid position, `prefix_cnt(p, n, u).many0()` matches
exactly the longest run whose first `n` items satisfy `p` and the others `u`. -/
theorem C42_many0 (p u : ι → Bool) (n o : Nat) (hv : Valid d o) (r : Res Span) :
    many0P d p u (.new n) o = some r ↔
      ∃ run rest, LongestPrefixed d o n p u (fun _ => True) run rest ∧
        r = .ok ⟨o, blen run⟩ (o + blen run) := by
  obtain ⟨post, hd⟩ := valid_iff_dropB.mp hv
  obtain ⟨run, rest, h1, rfl, h2, h3, _, h4⟩ := scanP_top p u n (fun _ => true) hd
  replace h4 := h4 (fun _ => rfl)
  have hS := span_of_run o (run := run) (rest := rest)
  have : many0P d p u (.new n) o = some (.ok ⟨o, blen run⟩ (o + blen run)) := by
    simp only [many0P, remK_eq hd, peek_eq hd, caseO, h3, h4]
    cases run with
    | nil => simp
    | cons x run => rw [if_neg (by simp)] at hS ⊢; exact hS
  rw [this]
  replace h1 : LongestPrefixed d o n p u (fun _ => True) run rest := by
    simpa [LongestPrefixed] using h1
  constructor
  · intro h; exact ⟨run, rest, h1, (Option.some.inj h).symm⟩
  · rintro ⟨run', rest', h, rfl⟩
    rw [(h1.unique h).1]

/-- **C42 (`many1`).** `prefix_cnt(p, n, u).many1()` matches that same run if it is not
empty and fails (consuming nothing) if it is. -/
theorem C42_many1 (p u : ι → Bool) (n o : Nat) (hv : Valid d o) (r : Res Span) :
    many1P d p u (.new n) o = some r ↔
      ∃ run rest, LongestPrefixed d o n p u (fun _ => True) run rest ∧
        r = if run = [] then .err .many1 o else .ok ⟨o, blen run⟩ (o + blen run) := by
  obtain ⟨post, hd⟩ := valid_iff_dropB.mp hv
  obtain ⟨run, rest, h1, rfl, h2, h3, _, h4⟩ := scanP_top p u n (fun _ => true) hd
  replace h4 := h4 (fun _ => rfl)
  have hS := span_of_run o (run := run) (rest := rest)
  have : many1P d p u (.new n) o =
      some (if run = [] then .err .many1 o else .ok ⟨o, blen run⟩ (o + blen run)) := by
    simp only [many1P, remK_eq hd, peek_eq hd, caseO, h3, h4]
    cases run with
    | nil => simp
    | cons x run => rw [if_neg (by simp)] at hS ⊢; exact hS
  rw [this]
  replace h1 : LongestPrefixed d o n p u (fun _ => True) run rest := by
    simpa [LongestPrefixed] using h1
  constructor
  · intro h; exact ⟨run, rest, h1, (Option.some.inj h).symm⟩
  · rintro ⟨run', rest', h, rfl⟩
    rw [(h1.unique h).1]

/-- **C42 (`times`).** `prefix_cnt(p, n, u).times(r)` takes the longest such run of at
most the allowed length and fails (consuming nothing) if its length is not in
the range. -/
theorem C42_times (p u : ι → Bool) (n o : Nat) (rg : CRange) (hv : Valid d o) (r : Res Span) :
    timesP d p u rg (.new n) o = some r ↔
      ∃ run rest, LongestPrefixed d o n p u rg.hi.allowsUpTo run rest ∧
        (rg.lo.allowsFrom run.length ∧ rg.hi.allowsUpTo run.length →
          r = .ok ⟨o, blen run⟩ (o + blen run)) ∧
        (¬ (rg.lo.allowsFrom run.length ∧ rg.hi.allowsUpTo run.length) → r = .err .times o) := by
  obtain ⟨post, hd⟩ := valid_iff_dropB.mp hv
  obtain ⟨run, rest, h1, rfl, h2, h3, h4, _⟩ := scanP_top p u n rg.more hd
  have hS := span_of_run o (run := run) (rest := rest)
  have hn : rg.needed 0 = 0 := by
    unfold CRange.needed; split <;> simp
  have : timesP d p u rg (.new n) o =
      if rg.contains run.length then some (.ok ⟨o, blen run⟩ (o + blen run))
      else some (.err .times o) := by
    simp only [timesP, remK_eq hd, peek_eq hd, caseO, h2, h3, h4, hn]
    rw [if_pos (Nat.zero_le _), hS]
  rw [this]
  replace h1 : LongestPrefixed d o n p u rg.hi.allowsUpTo run rest := by
    obtain ⟨a, b, c, e⟩ := h1
    refine ⟨a, b, ?_, ?_⟩
    · intro k hk hk2
      have : rg.more (k - 1) = true := c k hk hk2
      rw [more_iff, Nat.sub_add_cancel hk] at this; exact this
    · intro y rest' hr hP
      exact e y rest' hr (by show rg.more _ = true; rw [more_iff]; simpa using hP)
  constructor
  · intro h
    refine ⟨run, rest, h1, ?_, ?_⟩
    · intro hc
      rw [if_pos (contains_iff.mpr hc)] at h
      exact (Option.some.inj h).symm
    · intro hc
      rw [if_neg (fun hh => hc (contains_iff.mp hh))] at h
      exact (Option.some.inj h).symm
  · rintro ⟨run', rest', h, hr1, hr2⟩
    obtain ⟨rfl, rfl⟩ := h1.unique h
    by_cases hc : rg.contains run.length = true
    · rw [if_pos hc, hr1 (contains_iff.mp hc)]
    · rw [if_neg hc, hr2 (fun hh => hc (contains_iff.mpr hh))]

example : many1P ['#', 'a', 'b', '#'] (· == '#') (·.isAlpha) (.new 1) 0 = some (.ok ⟨0, 3⟩ 3) := by
  decide
example : LongestPrefixed ['#', 'a', 'b', '#'] 0 1 (· == '#') (·.isAlpha) (fun _ => True)
    ['#', 'a', 'b'] ['#'] := by
  refine ⟨⟨[], rfl, rfl⟩, ?_, by simp, ?_⟩
  · rw [show ['#', 'a', 'b'] = [] ++ ['#'] ++ ['a'] ++ ['b'] from rfl, followsPrefix_snoc,
      followsPrefix_snoc, followsPrefix_snoc]
    exact ⟨⟨⟨followsPrefix_nil _ _ _, by decide⟩, by decide⟩, by decide⟩
  · rintro y rest' h _ hf
    injection h with h _
    subst h
    have := (followsPrefix_snoc.mp hf).2
    simp at this

/-! ## `PrefixSync` under concurrent use

A schedule is any list of scheduling choices: any number of threads, any number
of calls per thread, any interleaving of their loads and stores, and every load
may return any value stored so far (which includes everything `Relaxed` loads
can return). -/

/-- What holds in every state reachable from a fresh `PrefixSync`. -/
structure SyncInv (n : Nat) (p u : ι → Bool) (s : SyncState ι) : Prop where
  ok : s.panicked = false
  cnt_le : ∀ c ∈ s.count, c ≤ n
  cnt_hist : ∀ c ∈ s.count, ∀ k, c < k → k ≤ n → ∃ e ∈ s.log, e.by_ = .pref k
  pc_counted : ∀ i x c, s.pc i = .counted x c →
    1 ≤ c ∧ c ≤ n ∧ ∀ k, c < k → k ≤ n → ∃ e ∈ s.log, e.by_ = .pref k
  pc_stored : ∀ i x c, s.pc i = .stored x c →
    1 ≤ c ∧ c ≤ n ∧ ∀ k, c < k → k ≤ n → ∃ e ∈ s.log, e.by_ = .pref k
  sound : ∀ e ∈ s.log, (e.by_ = .blocked ∧ e.ret = false) ∨ (e.by_ = .unit ∧ e.ret = u e.item) ∨
    (∃ c, 1 ≤ c ∧ c ≤ n ∧ e.by_ = .pref c ∧ e.ret = p e.item)
  first : ∀ later e earlier, s.log = later ++ e :: earlier → e.by_ = .unit →
    ∀ k, 1 ≤ k → k ≤ n → ∃ e' ∈ earlier, e'.by_ = .pref k

theorem syncInv_init (n : Nat) (p u : ι → Bool) : SyncInv n p u (.init n : SyncState ι) where
  ok := rfl
  cnt_le := by simp [SyncState.init]
  cnt_hist := by simp [SyncState.init]
  pc_counted := by simp [SyncState.init]
  pc_stored := by simp [SyncState.init]
  sound := by simp [SyncState.init]
  first := by simp [SyncState.init]

theorem cons_eq_split {α : Type} {a : α} {l later : List α} {e : α} {earlier : List α}
    (h : a :: l = later ++ e :: earlier) :
    (later = [] ∧ a = e ∧ l = earlier) ∨ ∃ later', l = later' ++ e :: earlier := by
  cases later with
  | nil => left; simpa using h
  | cons b later =>
    right
    simp at h
    exact ⟨later, h.2⟩

theorem syncInv_step {n : Nat} {p u : ι → Bool} {s s' : SyncState ι} {ch : Choice ι}
    (hi : SyncInv n p u s) (h : syncStep p u s ch = some s') : SyncInv n p u s' := by
  obtain ⟨h1, h2, h3, h4, h5, h6, h7⟩ := hi
  have wk : ∀ (e0 : Call ι) k, (∃ e ∈ s.log, e.by_ = .pref k) → ∃ e ∈ e0 :: s.log, e.by_ = .pref k :=
    fun e0 k ⟨e, he, hk⟩ => ⟨e, List.mem_cons_of_mem _ he, hk⟩
  unfold syncStep at h
  cases hpc : s.pc ch.tid with
  | idle =>
    rw [hpc] at h
    cases hv : s.value[ch.age]? with
    | none => simp [hv] at h
    | some v =>
      cases v with
      | true =>
        simp only [hv, Option.some.injEq] at h
        subst h
        refine ⟨h1, h2, h3, ?_, ?_, h6, h7⟩
        · intro i x c hx
          simp only [setPC] at hx
          split at hx
          · simp at hx
          · exact h4 i x c hx
        · intro i x c hx
          simp only [setPC] at hx
          split at hx
          · simp at hx
          · exact h5 i x c hx
      | false =>
        simp only [hv, Option.some.injEq] at h
        subst h
        refine ⟨h1, h2, fun c hc k hk hkn => wk _ k (h3 c hc k hk hkn), ?_, ?_, ?_, ?_⟩
        · intro i x c hx
          obtain ⟨a, b, e⟩ := h4 i x c hx
          exact ⟨a, b, fun k hk hkn => wk _ k (e k hk hkn)⟩
        · intro i x c hx
          obtain ⟨a, b, e⟩ := h5 i x c hx
          exact ⟨a, b, fun k hk hkn => wk _ k (e k hk hkn)⟩
        · intro e he
          rcases List.mem_cons.mp he with rfl | he
          · exact .inl ⟨rfl, rfl⟩
          · exact h6 e he
        · intro later e earlier he hu
          rcases cons_eq_split he with ⟨_, rfl, _⟩ | ⟨later', he⟩
          · simp at hu
          · exact h7 later' e earlier he hu
  | loaded x0 =>
    rw [hpc] at h
    cases hv : s.count[ch.age]? with
    | none => simp [hv] at h
    | some c0 =>
      have hm := List.mem_of_getElem? hv
      simp only [hv] at h
      split at h
      · rename_i hz
        subst hz
        simp only [Option.some.injEq] at h
        subst h
        refine ⟨h1, h2, fun c hc k hk hkn => wk _ k (h3 c hc k hk hkn), ?_, ?_, ?_, ?_⟩
        · intro i x c hx
          simp only [setPC] at hx
          split at hx
          · simp at hx
          · obtain ⟨a, b, e⟩ := h4 i x c hx
            exact ⟨a, b, fun k hk hkn => wk _ k (e k hk hkn)⟩
        · intro i x c hx
          simp only [setPC] at hx
          split at hx
          · simp at hx
          · obtain ⟨a, b, e⟩ := h5 i x c hx
            exact ⟨a, b, fun k hk hkn => wk _ k (e k hk hkn)⟩
        · intro e he
          rcases List.mem_cons.mp he with rfl | he
          · exact .inr (.inl ⟨rfl, rfl⟩)
          · exact h6 e he
        · intro later e earlier he hu
          rcases cons_eq_split he with ⟨_, rfl, rfl⟩ | ⟨later', he⟩
          · exact fun k hk hkn => h3 0 hm k (by omega) hkn
          · exact h7 later' e earlier he hu
      · rename_i hz
        simp only [Option.some.injEq] at h
        subst h
        refine ⟨h1, h2, h3, ?_, ?_, h6, h7⟩
        · intro i x c hx
          simp only [setPC] at hx
          split at hx
          · simp only [PC.counted.injEq] at hx
            obtain ⟨rfl, rfl⟩ := hx
            exact ⟨by omega, h2 _ hm, h3 _ hm⟩
          · exact h4 i x c hx
        · intro i x c hx
          simp only [setPC] at hx
          split at hx
          · simp at hx
          · exact h5 i x c hx
  | counted x0 c0 =>
    rw [hpc] at h
    simp only [Option.some.injEq] at h
    subst h
    refine ⟨h1, h2, h3, ?_, ?_, h6, h7⟩
    · intro i x c hx
      simp only [setPC] at hx
      split at hx
      · simp at hx
      · exact h4 i x c hx
    · intro i x c hx
      simp only [setPC] at hx
      split at hx
      · simp only [PC.stored.injEq] at hx
        obtain ⟨rfl, rfl⟩ := hx
        exact h4 _ _ _ hpc
      · exact h5 i x c hx
  | stored x0 c0 =>
    rw [hpc] at h
    simp only [Option.some.injEq] at h
    subst h
    obtain ⟨a, b, hh⟩ := h5 _ _ _ hpc
    refine ⟨?_, ?_, ?_, ?_, ?_, ?_, ?_⟩
    · simp [h1]; omega
    · intro c hc
      rcases List.mem_cons.mp hc with rfl | hc
      · omega
      · exact h2 c hc
    · intro c hc k hk hkn
      rcases List.mem_cons.mp hc with rfl | hc
      · by_cases hkc : k = c0
        · subst hkc; exact ⟨_, List.mem_cons_self, rfl⟩
        · exact wk _ k (hh k (by omega) hkn)
      · exact wk _ k (h3 c hc k hk hkn)
    · intro i x c hx
      simp only [setPC] at hx
      split at hx
      · simp at hx
      · obtain ⟨a, b, e⟩ := h4 i x c hx
        exact ⟨a, b, fun k hk hkn => wk _ k (e k hk hkn)⟩
    · intro i x c hx
      simp only [setPC] at hx
      split at hx
      · simp at hx
      · obtain ⟨a, b, e⟩ := h5 i x c hx
        exact ⟨a, b, fun k hk hkn => wk _ k (e k hk hkn)⟩
    · intro e he
      rcases List.mem_cons.mp he with rfl | he
      · exact .inr (.inr ⟨c0, a, b, rfl, rfl⟩)
      · exact h6 e he
    · intro later e earlier he hu
      rcases cons_eq_split he with ⟨_, rfl, _⟩ | ⟨later', he⟩
      · simp at hu
      · exact h7 later' e earlier he hu

theorem syncInv_run {n : Nat} {p u : ι → Bool} {l : List (Choice ι)} {s s' : SyncState ι}
    (hi : SyncInv n p u s) (h : syncRun p u s l = some s') : SyncInv n p u s' := by
  induction l generalizing s with
  | nil => simp [syncRun] at h; subst h; exact hi
  | cons ch l ih =>
    simp only [syncRun] at h
    cases hs : syncStep p u s ch with
    | none => simp [hs] at h
    | some s1 => rw [hs] at h; exact ih (syncInv_step hi hs) h

/-- **C42 (sync, counter).** Under every schedule the counter never underflows and
never exceeds its initial value. -/
theorem C42_sync_counter (n : Nat) (p u : ι → Bool) (sched : List (Choice ι)) (s : SyncState ι)
    (h : syncRun p u (.init n) sched = some s) :
    s.panicked = false ∧ ∀ c ∈ s.count, c ≤ n :=
  have hi := syncInv_run (syncInv_init n p u) h
  ⟨hi.ok, hi.cnt_le⟩

/-- **C42 (sync, soundness).** Under every schedule an item is accepted only if the
prefix or the unit accepts it; and what decided is never asked about a slot
outside `1..=n`. -/
theorem C42_sync_sound (n : Nat) (p u : ι → Bool) (sched : List (Choice ι)) (s : SyncState ι)
    (h : syncRun p u (.init n) sched = some s) (e : Call ι) (he : e ∈ s.log) (hr : e.ret = true) :
    (e.by_ = .unit ∧ u e.item = true) ∨
      ∃ c, 1 ≤ c ∧ c ≤ n ∧ e.by_ = .pref c ∧ p e.item = true := by
  have hi := syncInv_run (syncInv_init n p u) h
  rcases hi.sound e he with ⟨_, h2⟩ | ⟨h1, h2⟩ | ⟨c, h1, h2, h3, h4⟩
  · simp [hr] at h2
  · exact .inl ⟨h1, by rw [← h2, hr]⟩
  · exact .inr ⟨c, h1, h2, h3, by rw [← h4, hr]⟩

/-- **C42 (sync, prefix first).** Under every schedule, before the first call that is
decided by the unit is finished, each of the `n` prefix slots has been checked by
some finished call. -/
theorem C42_sync_prefix_first (n : Nat) (p u : ι → Bool) (sched : List (Choice ι)) (s : SyncState ι)
    (h : syncRun p u (.init n) sched = some s) (later earlier : List (Call ι)) (e : Call ι)
    (hl : s.log = later ++ e :: earlier) (hu : e.by_ = .unit) (k : Nat) (h1 : 1 ≤ k) (h2 : k ≤ n) :
    ∃ e' ∈ earlier, e'.by_ = .pref k :=
  (syncInv_run (syncInv_init n p u) h).first later e earlier hl hu k h1 h2

theorem prefixCalls_snoc (p u : ι → Bool) (s : PrefixState) (l : List ι) (x : ι) :
    prefixCalls p u s (l ++ [x]) =
      ((prefixCalls p u s l).1 ++ [(prefixIsMatch p u (prefixCalls p u s l).2 x).1],
        (prefixIsMatch p u (prefixCalls p u s l).2 x).2) := by
  induction l generalizing s with
  | nil => rfl
  | cons y l ih => simp [prefixCalls, ih]

/-- The items tested by the finished calls, oldest first. -/
def SyncState.items (s : SyncState ι) : List ι := (s.log.map (·.item)).reverse
/-- The answers of the finished calls, oldest first. -/
def SyncState.answers (s : SyncState ι) : List Bool := (s.log.map (·.ret)).reverse

/-- A schedule in which no call starts before the previous one has returned, and
loads return the latest value. -/
def NonOverlapping (n : Nat) (p u : ι → Bool) (sched : List (Choice ι)) : Prop :=
  ∀ l1 ch l2 s1, sched = l1 ++ ch :: l2 → syncRun p u (.init n) l1 = some s1 →
    ch.age = 0 ∧ ∀ j, j ≠ ch.tid → s1.pc j = .idle

structure SeqInv (n : Nat) (p u : ι → Bool) (s : SyncState ι) (t : Nat) : Prop where
  others : ∀ j, j ≠ t → s.pc j = .idle
  ans : s.answers = (prefixCalls p u (.new n) s.items).1
  cnt : s.count[0]? = some (prefixCalls p u (.new n) s.items).2.count
  val : match s.pc t with
    | .idle => s.value[0]? = some (prefixCalls p u (.new n) s.items).2.value
    | .loaded _ => s.value[0]? = some (prefixCalls p u (.new n) s.items).2.value ∧
        (prefixCalls p u (.new n) s.items).2.value = true
    | .counted _ c => s.value[0]? = some (prefixCalls p u (.new n) s.items).2.value ∧
        (prefixCalls p u (.new n) s.items).2.value = true ∧
        c = (prefixCalls p u (.new n) s.items).2.count ∧ c ≠ 0
    | .stored x c => s.value[0]? = some (p x) ∧
        (prefixCalls p u (.new n) s.items).2.value = true ∧
        c = (prefixCalls p u (.new n) s.items).2.count ∧ c ≠ 0

theorem setPC_self (f : Nat → PC ι) (i : Nat) (c : PC ι) : setPC f i c i = c := by simp [setPC]
theorem setPC_other (f : Nat → PC ι) {i j : Nat} (c : PC ι) (h : j ≠ i) : setPC f i c j = f j := by
  simp [setPC, h]

theorem seqInv_step {n : Nat} {p u : ι → Bool} {s s' : SyncState ι} {t : Nat} {ch : Choice ι}
    (hi : SeqInv n p u s t) (hage : ch.age = 0) (hoth : ∀ j, j ≠ ch.tid → s.pc j = .idle)
    (h : syncStep p u s ch = some s') : SeqInv n p u s' ch.tid := by
  have hi' : SeqInv n p u s ch.tid := by
    by_cases ht : t = ch.tid
    · exact ht ▸ hi
    · refine ⟨hoth, hi.ans, hi.cnt, ?_⟩
      have := hi.val
      rw [hoth t ht] at this
      rw [hi.others ch.tid (fun e => ht e.symm)]
      exact this
  obtain ⟨_, h2, h3, h4⟩ := hi'
  unfold syncStep at h
  rw [hage] at h
  have it : ∀ (e : Call ι) (sp : SyncState ι), sp.log = e :: s.log →
      sp.items = s.items ++ [e.item] ∧ sp.answers = s.answers ++ [e.ret] := by
    intro e sp hl
    simp [SyncState.items, SyncState.answers, hl]
  cases hpc : s.pc ch.tid with
  | idle =>
    rw [hpc] at h h4
    rw [h4] at h
    cases hv : (prefixCalls p u (.new n) s.items).2.value with
    | true =>
      simp only [hv, Option.some.injEq] at h
      subst h
      refine ⟨fun j hj => by simp only [setPC_other _ _ hj]; exact hoth j hj, h2, h3, ?_⟩
      simp only [setPC_self]
      exact ⟨h4, hv⟩
    | false =>
      simp only [hv, Option.some.injEq] at h
      subst h
      obtain ⟨e1, e2⟩ := it ⟨ch.tid, ch.item, .blocked, false⟩
        { s with log := ⟨ch.tid, ch.item, .blocked, false⟩ :: s.log } rfl
      have st : prefixIsMatch p u (prefixCalls p u (.new n) s.items).2 ch.item =
          (false, (prefixCalls p u (.new n) s.items).2) := by simp [prefixIsMatch, hv]
      refine ⟨hoth, ?_, ?_, ?_⟩
      · rw [e1, e2, prefixCalls_snoc, h2, st]
      · rw [e1, prefixCalls_snoc, st]; exact h3
      · rw [hpc, e1, prefixCalls_snoc, st]; exact h4
  | loaded x =>
    rw [hpc] at h h4
    rw [h3] at h
    obtain ⟨h4, hv⟩ := h4
    by_cases hz : (prefixCalls p u (.new n) s.items).2.count = 0
    · simp only [hz, if_true, Option.some.injEq] at h
      subst h
      obtain ⟨e1, e2⟩ := it ⟨ch.tid, x, .unit, u x⟩
        { s with pc := setPC s.pc ch.tid .idle, log := ⟨ch.tid, x, .unit, u x⟩ :: s.log } rfl
      have st : prefixIsMatch p u (prefixCalls p u (.new n) s.items).2 x =
          (u x, (prefixCalls p u (.new n) s.items).2) := by simp [prefixIsMatch, hv, hz]
      refine ⟨fun j hj => by simp only [setPC_other _ _ hj]; exact hoth j hj, ?_, ?_, ?_⟩
      · rw [e1, e2, prefixCalls_snoc, h2, st]
      · rw [e1, prefixCalls_snoc, st]; exact h3
      · simp only [setPC_self]
        rw [e1, prefixCalls_snoc, st]; exact h4
    · simp only [hz, if_false, Option.some.injEq] at h
      subst h
      refine ⟨fun j hj => by simp only [setPC_other _ _ hj]; exact hoth j hj, h2, h3, ?_⟩
      simp only [setPC_self]
      exact ⟨h4, hv, rfl, hz⟩
  | counted x c =>
    rw [hpc] at h h4
    simp only [Option.some.injEq] at h
    subst h
    refine ⟨fun j hj => by simp only [setPC_other _ _ hj]; exact hoth j hj, h2, h3, ?_⟩
    simp only [setPC_self]
    exact ⟨rfl, h4.2⟩
  | stored x c =>
    rw [hpc] at h h4
    simp only [Option.some.injEq] at h
    obtain ⟨h4, hv, hc, hz⟩ := h4
    obtain ⟨e1, e2⟩ := it ⟨ch.tid, x, .pref c, p x⟩ s' (by rw [← h])
    have st : prefixIsMatch p u (prefixCalls p u (.new n) s.items).2 x = (p x, ⟨c - 1, p x⟩) := by
      simp [prefixIsMatch, hv, ← hc, hz]
    have c' : s'.count = (c - 1) :: s.count := by rw [← h]
    have v' : s'.value = s.value := by rw [← h]
    have p' : s'.pc = setPC s.pc ch.tid .idle := by rw [← h]
    refine ⟨fun j hj => by rw [p', setPC_other _ _ hj]; exact hoth j hj, ?_, ?_, ?_⟩
    · rw [e1, e2, prefixCalls_snoc, h2, st]
    · rw [e1, prefixCalls_snoc, st, c']; rfl
    · rw [p', setPC_self]
      simp only
      rw [e1, prefixCalls_snoc, st, v']; exact h4

theorem syncRun_append (p u : ι → Bool) (s : SyncState ι) (l1 l2 : List (Choice ι)) :
    syncRun p u s (l1 ++ l2) = (syncRun p u s l1).bind fun s1 => syncRun p u s1 l2 := by
  induction l1 generalizing s with
  | nil => rfl
  | cons ch l1 ih =>
    simp only [List.cons_append, syncRun]
    cases syncStep p u s ch with
    | none => rfl
    | some s1 => exact ih s1

theorem seqInv_run {n : Nat} {p u : ι → Bool} {sched : List (Choice ι)}
    (hn : NonOverlapping n p u sched) :
    ∀ l1 l2 s1 s2 t, sched = l1 ++ l2 → syncRun p u (.init n) l1 = some s1 → SeqInv n p u s1 t →
      syncRun p u s1 l2 = some s2 → ∃ t, SeqInv n p u s2 t := by
  intro l1 l2
  induction l2 generalizing l1 with
  | nil =>
    intro s1 s2 t _ _ hi h2
    simp [syncRun] at h2
    exact ⟨t, h2 ▸ hi⟩
  | cons ch l2 ih =>
    intro s1 s2 t hs h1 hi h2
    simp only [syncRun] at h2
    cases hst : syncStep p u s1 ch with
    | none => simp [hst] at h2
    | some s1' =>
      rw [hst] at h2
      obtain ⟨a, b⟩ := hn l1 ch l2 s1 hs h1
      refine ih (l1 ++ [ch]) s1' s2 ch.tid (by simp [hs]) ?_ (seqInv_step hi a b hst) h2
      rw [syncRun_append, h1]
      simp [syncRun, hst]

/-- **C42 (sync, without overlap).** As long as calls do not overlap — whichever threads
make them — `PrefixSync` answers exactly like `Prefix`. -/
theorem C42_sync_without_overlap (n : Nat) (p u : ι → Bool) (sched : List (Choice ι))
    (s : SyncState ι) (hn : NonOverlapping n p u sched)
    (h : syncRun p u (.init n) sched = some s) :
    s.answers = (prefixCalls p u (.new n) s.items).1 := by
  obtain ⟨t, hi⟩ := seqInv_run hn [] sched (.init n) s 0 rfl rfl
    ⟨by simp [SyncState.init], rfl, rfl, rfl⟩ h
  exact hi.ans

/-- Thread `t` starts testing `x` / moves on, loads returning the latest value. -/
def go (t : Nat) (x : Char) : Choice Char := ⟨t, x, 0⟩

/-- Two calls by different threads, one after the other. -/
example : NonOverlapping 1 (· == '#') (·.isAlpha)
    [go 0 '#', go 0 '#', go 0 '#', go 0 '#', go 1 'a', go 1 'a'] := by
  intro l1 ch l2 s1 hs h1
  have h6 : l1.length < 6 := by
    have := congrArg List.length hs; simp at this; omega
  have hl1 : l1 = ([go 0 '#', go 0 '#', go 0 '#', go 0 '#', go 1 'a', go 1 'a'] : List _).take l1.length := by
    rw [hs]; simp
  have hch : ([go 0 '#', go 0 '#', go 0 '#', go 0 '#', go 1 'a', go 1 'a'] : List _)[l1.length]? = some ch := by
    rw [hs]; simp
  generalize l1.length = k at *
  match k, h6 with
  | 0, _ | 1, _ | 2, _ | 3, _ | 4, _ | 5, _ =>
    subst hl1
    simp [syncRun, syncStep, SyncState.init, go, setPC] at h1 hch
    subst h1 hch
    simp
    try (intro j hj; simp only [setPC]; repeat' split <;> simp_all)

/-- **C42 (sync, counterexample: a slot used twice).** With `n = 1`, two threads that
test `#` at the same time are both accepted by the prefix; one after the other,
the second `#` would be rejected by the unit. -/
theorem C42_sync_slot_shared_counterexample :
    ∃ sched s, (∀ ch ∈ sched, ch.age = 0) ∧
      syncRun (· == '#') (·.isAlpha) (.init 1) sched = some s ∧
      s.items = ['#', '#'] ∧ s.answers = [true, true] ∧
      (prefixCalls (· == '#') (·.isAlpha) (.new 1) ['#', '#']).1 = [true, false] := by
  refine ⟨[go 0 '#', go 1 '#', go 0 '#', go 1 '#', go 0 '#', go 1 '#', go 0 '#', go 1 '#'], _, ?_, rfl,
    rfl, rfl, ?_⟩
  · simp [go]
  · decide

/-- **C42 (sync, counterexample: a lost rejection).** With `n = 2`, one thread's `!` is
rejected by the prefix but another thread's concurrent store hides this, and a
later call is accepted. -/
theorem C42_sync_lost_rejection_counterexample :
    ∃ sched s, (∀ ch ∈ sched, ch.age = 0) ∧
      syncRun (· == '#') (·.isAlpha) (.init 2) sched = some s ∧
      s.log = [⟨2, '#', .pref 1, true⟩, ⟨1, '#', .pref 2, true⟩, ⟨0, '!', .pref 2, false⟩] := by
  refine ⟨[go 0 '!', go 1 '#', go 0 '!', go 1 '#', go 0 '!', go 0 '!', go 1 '#', go 1 '#',
    go 2 '#', go 2 '#', go 2 '#', go 2 '#'], _, ?_, rfl, rfl⟩
  simp [go]

/-- **C42 (sync, counterexample: the counter can rise).** A slow thread can put the
counter back up, so that the prefix is asked again after the unit was. -/
theorem C42_sync_counter_rises_counterexample :
    ∃ sched s, (∀ ch ∈ sched, ch.age = 0) ∧
      syncRun (· == '#') (·.isAlpha) (.init 2) sched = some s ∧
      s.count = [1, 0, 1, 2] ∧
      s.log = [⟨0, '#', .pref 2, true⟩, ⟨1, 'a', .unit, true⟩, ⟨1, '#', .pref 1, true⟩,
        ⟨1, '#', .pref 2, true⟩] := by
  refine ⟨[go 0 '#', go 0 '#', go 1 '#', go 1 '#', go 1 '#', go 1 '#', go 1 '#', go 1 '#', go 1 '#',
    go 1 '#', go 1 'a', go 1 'a', go 0 '#', go 0 '#'], _, ?_, rfl, rfl, rfl⟩
  simp [go]

end Neure
