import Verif.PegSound
/-!
# C58, the other direction: every derivation is a run

Because of soundness and `Ford.unique`, only termination has to be shown.
-/

namespace Neure

set_option linter.unusedSectionVars false
set_option linter.unusedSimpArgs false

section Ev
variable {ι : Type} {R : Nat → Peg ι}

theorem ev_seq {N : Nat} {a b : Peg ι} {x r} (h : pegEv R N (.seq a b) x = some r) :
    ∃ M, N = M + 1 ∧ ((pegEv R M a x = some none ∧ r = none) ∨
      ∃ y, pegEv R M a x = some (some y) ∧ pegEv R M b y = some r) := by
  cases N with
  | zero => simp [pegEv] at h
  | succ M =>
    refine ⟨M, rfl, ?_⟩
    simp only [pegEv] at h
    split at h
    · cases h
    · next h1 => cases h; exact .inl ⟨h1, rfl⟩
    · next y h1 => exact .inr ⟨y, h1, h⟩

theorem ev_alt {N : Nat} {a b : Peg ι} {x r} (h : pegEv R N (.alt a b) x = some r) :
    ∃ M, N = M + 1 ∧ ((∃ y, pegEv R M a x = some (some y) ∧ r = some y) ∨
      (pegEv R M a x = some none ∧ pegEv R M b x = some r)) := by
  cases N with
  | zero => simp [pegEv] at h
  | succ M =>
    refine ⟨M, rfl, ?_⟩
    simp only [pegEv] at h
    split at h
    · cases h
    · next h1 => exact .inr ⟨h1, h⟩
    · next y h1 => cases h; exact .inl ⟨y, h1, rfl⟩

theorem ev_star {N : Nat} {a : Peg ι} {x r} (h : pegEv R N (.star a) x = some r) :
    ∃ M, N = M + 1 ∧ ((pegEv R M a x = some none ∧ r = some x) ∨
      ∃ y, pegEv R M a x = some (some y) ∧ pegEv R M (.star a) y = some r) := by
  cases N with
  | zero => simp [pegEv] at h
  | succ M =>
    refine ⟨M, rfl, ?_⟩
    simp only [pegEv] at h
    split at h
    · cases h
    · next h1 => cases h; exact .inl ⟨h1, rfl⟩
    · next y h1 => exact .inr ⟨y, h1, h⟩

theorem ev_not {N : Nat} {a : Peg ι} {x r} (h : pegEv R N (.not a) x = some r) :
    ∃ M r', N = M + 1 ∧ pegEv R M a x = some r' := by
  cases N with
  | zero => simp [pegEv] at h
  | succ M =>
    simp only [pegEv] at h
    cases ha : pegEv R M a x with
    | none => simp [ha] at h
    | some r' => exact ⟨M, r', rfl, ha⟩

theorem ev_rep {N : Nat} {e : Peg ι} {m : Nat} {n : Option Nat} (hmn : ∀ k, n = some k → m ≤ k)
    {x r} (h : pegEv R N (.rep e m n) x = some r) :
    n = some 0 ∨ (n ≠ some 0 ∧ ∃ M, M < N ∧ (pegEv R M e x = some none ∨
      ∃ y r', pegEv R M e x = some (some y) ∧
        pegEv R M (.rep e (m - 1) (n.map (· - 1))) y = some r')) := by
  cases n with
  | none =>
    refine .inr ⟨by simp, ?_⟩
    cases m with
    | zero =>
      obtain ⟨M, rfl, ⟨h1, _⟩ | ⟨y, h1, h2⟩⟩ := ev_star h
      · exact ⟨M, by omega, .inl h1⟩
      · exact ⟨M, by omega, .inr ⟨y, r, h1, h2⟩⟩
    | succ m =>
      obtain ⟨M, rfl, ⟨h1, _⟩ | ⟨y, h1, h2⟩⟩ := ev_seq h
      · exact ⟨M, by omega, .inl h1⟩
      · exact ⟨M, by omega, .inr ⟨y, r, h1, h2⟩⟩
  | some k =>
    cases k with
    | zero => exact .inl rfl
    | succ k =>
      refine .inr ⟨by simp, ?_⟩
      cases m with
      | zero =>
        obtain ⟨M, rfl, h'⟩ := ev_alt h
        have h : ∃ r', pegEv R M (.seq e (Peg.upto e k)) x = some r' := by
          rcases h' with ⟨y, h, _⟩ | ⟨h, _⟩ <;> exact ⟨_, h⟩
        obtain ⟨r', h⟩ := h
        obtain ⟨M', rfl, ⟨h1, _⟩ | ⟨y, h1, h2⟩⟩ := ev_seq h
        · exact ⟨M', by omega, .inl h1⟩
        · exact ⟨M', by omega, .inr ⟨y, r', h1, h2⟩⟩
      | succ m =>
        simp only [Peg.rep, Nat.add_sub_add_right] at h
        obtain ⟨M, rfl, ⟨h1, _⟩ | ⟨y, h1, h2⟩⟩ := ev_seq h
        · exact ⟨M, by omega, .inl h1⟩
        · exact ⟨M, by omega, .inr ⟨y, r, h1, h2⟩⟩

end Ev

variable {ι β : Type} [Item ι] {G : Rules ι β} {R : Nat → Peg ι}

/-! ### Loops started later -/

theorem rebase {t0 t s u : Span} (hb : t0.beg ≤ t.beg) (hs : t0.stop = t.stop)
    (h : t.addAssign s = some u) :
    ∃ u0, t0.addAssign s = some u0 ∧ u0.beg = t0.beg ∧ u0.beg ≤ u.beg ∧ u0.stop = u.stop := by
  rw [addAssign_eq] at h
  obtain ⟨h1, h2, h3, h4⟩ := h
  have hle : t0.beg ≤ s.stop := by
    have : t0.beg ≤ t0.stop := Nat.le_add_right _ _
    omega
  refine ⟨⟨t0.beg, s.stop - t0.beg⟩, addAssign_eq.mpr ⟨by omega, by omega, rfl, ?_⟩, rfl, ?_, ?_⟩
  · simp only [Span.stop] at *; omega
  · simp only; omega
  · simp only [Span.stop] at *; omega

theorem rebase_rep {mt : Pat ι β → Nat → Option (Res Span)} {p : Pat ι β} {more more' ok ok' : Nat → Bool}
    (hm : ∀ k, more (k + 1) = more' k) (e e' : Error) (b b' : Nat)
    (n c : Nat) (t t0 : Span) (o : Nat) (hb : t0.beg ≤ t.beg) (hs : t0.stop = t.stop)
    {res : Res Span} (hne : res ≠ .panic)
    (h : repLoop mt p more' (finish ok' e' b') n c t o = some res) :
    ∃ res', repLoop mt p more (finish ok e b) n (c + 1) t0 o = some res' := by
  induction n generalizing c t t0 o with
  | zero => simp [repLoop] at h
  | succ n ih =>
    simp only [repLoop, hm] at h ⊢
    split at h
    · next hc =>
      rw [if_pos hc]
      rw [caseR_some] at h
      rcases h with ⟨_, rfl⟩ | ⟨s, o1, h1, h2⟩ | ⟨er, o1, h1, h2⟩
      · exact absurd rfl hne
      · rw [h1]; simp only [caseR]
        rw [addK_some] at h2
        rcases h2 with ⟨_, rfl⟩ | ⟨u, hu, h2⟩
        · exact absurd rfl hne
        · obtain ⟨u0, hu0, hb', hb1, hs1⟩ := rebase hb hs hu
          simp only [addK, hu0]
          exact ih _ u u0 _ hb1 hs1 h2
      · rw [h1]; simp only [caseR, finish]; split <;> exact ⟨_, rfl⟩
    · next hc => rw [if_neg hc]; simp only [finish]; split <;> exact ⟨_, rfl⟩

theorem rebase_sep {mt : Pat ι β → Nat → Option (Res Span)} {p s : Pat ι β} {ok ok' : Nat → Bool}
    (e e' : Error) (b b' : Nat)
    (n c : Nat) (t t0 : Span) (o : Nat) (hb : t0.beg ≤ t.beg) (hs : t0.stop = t.stop)
    {res : Res Span} (hne : res ≠ .panic)
    (h : sepLoop mt p s true (fun _ => true) (finish ok' e' b') n c t o = some res) :
    ∃ res', sepLoop mt p s true (fun _ => true) (finish ok e b) n (c + 1) t0 o = some res' := by
  induction n generalizing c t t0 o with
  | zero => simp [sepLoop] at h
  | succ n ih =>
    simp only [sepLoop, if_true] at h ⊢
    rw [caseR_some] at h
    rcases h with ⟨_, rfl⟩ | ⟨sp, o1, h1, h2⟩ | ⟨er, o1, h1, h2⟩
    · exact absurd rfl hne
    · rw [h1]; simp only [caseR]
      rw [caseR_some] at h2
      rcases h2 with ⟨_, rfl⟩ | ⟨ss, o2, h2, h3⟩ | ⟨er, o2, h2, h3⟩
      · exact absurd rfl hne
      · rw [h2]; simp only
        rw [addK_some] at h3
        rcases h3 with ⟨_, rfl⟩ | ⟨u, hu, h3⟩
        · exact absurd rfl hne
        · obtain ⟨u0, hu0, hb', hb1, hs1⟩ := rebase hb hs hu
          simp only [addK, hu0]
          rw [addK_some] at h3
          rcases h3 with ⟨_, rfl⟩ | ⟨v, hv, h3⟩
          · exact absurd rfl hne
          · obtain ⟨v0, hv0, hb'', hb2, hs2⟩ := rebase hb1 hs1 hv
            simp only [hv0]
            exact ih _ v v0 _ hb2 hs2 h3
      · rw [h2]; simp only
        rw [addK_some] at h3
        rcases h3 with ⟨_, rfl⟩ | ⟨u, hu, h3⟩
        · exact absurd rfl hne
        · obtain ⟨u0, hu0, _⟩ := rebase hb hs hu
          simp only [addK, hu0, finish]; split <;> exact ⟨_, rfl⟩
    · rw [h1]; simp only [caseR, finish]; split <;> exact ⟨_, rfl⟩

/-- `repeat2 m n` stops if "`m` to `n` times" does and one more attempt after it does. -/
theorem rep2_stops {mt : Pat ι β → Nat → Option (Res Span)} {p : Pat ι β} {more okA ok : Nat → Bool}
    {hi : Nat} (hm : ∀ k, more k = true ↔ k < hi) (hok : okA hi = true) (e e' : Error) (b b' : Nat)
    (n c : Nat) (hc : c ≤ hi) (t : Span) (o : Nat) {res : Res Span}
    (h : repLoop mt p more (finish okA e b) n c t o = some res)
    (hlast : ∀ s o', res = .ok s o' → ∃ r, mt p o' = some r) :
    ∃ m res', repLoop mt p (fun c => decide (c ≤ hi)) (finish ok e' b') m c t o = some res' := by
  induction n generalizing c t o with
  | zero => simp [repLoop] at h
  | succ n ih =>
    simp only [repLoop] at h
    split at h
    · next hlt =>
      rw [hm] at hlt
      rw [caseR_some] at h
      rcases h with ⟨h1, rfl⟩ | ⟨s, o1, h1, h2⟩ | ⟨er, o1, h1, h2⟩
      · exact ⟨1, .panic, by simp [repLoop, hc, h1, caseR]⟩
      · rw [addK_some] at h2
        rcases h2 with ⟨hu, rfl⟩ | ⟨u, hu, h2⟩
        · exact ⟨1, .panic, by simp [repLoop, hc, h1, caseR, addK, hu]⟩
        · obtain ⟨m, res', hm'⟩ := ih (c + 1) (by omega) u o1 h2
          exact ⟨m + 1, res', by simp only [repLoop, hc, decide_true, if_true, h1, caseR, addK, hu]; exact hm'⟩
      · refine ⟨1, if ok c then .ok t o1 else .err e' b', ?_⟩
        simp only [repLoop, hc, decide_true, if_true, h1, caseR, finish]; split <;> rfl
    · next hlt =>
      have hce : c = hi := by
        have : ¬ c < hi := fun h' => hlt ((hm c).mpr h')
        omega
      subst hce
      simp only [finish, hok, if_true, Option.some.injEq] at h
      obtain ⟨r, hr⟩ := hlast t o h.symm
      cases r with
      | panic => exact ⟨1, .panic, by simp [repLoop, hr, caseR]⟩
      | err er o1 =>
        refine ⟨1, if ok c then .ok t o1 else .err e' b', ?_⟩
        simp only [repLoop, Nat.le_refl, decide_true, if_true, hr, caseR, finish]; split <;> rfl
      | ok s o1 =>
        cases hu : t.addAssign s with
        | none => exact ⟨1, .panic, by simp [repLoop, hr, caseR, addK, hu]⟩
        | some u =>
          refine ⟨2, if ok (c + 1) then .ok u o1 else .err e' b', ?_⟩
          simp only [repLoop, Nat.le_refl, decide_true, if_true, hr, caseR, addK, hu,
            show ¬ c + 1 ≤ c by omega, decide_false, Bool.false_eq_true, if_false, finish]
          split <;> rfl

/-! ### Termination -/

/-- The run stops. -/
def Stops (G : Rules ι β) (p : Pat ι β) (pre x : List ι) : Prop :=
  ∃ res, parseL G none (pre ++ x) p (blen pre) = some res

theorem sound_of (hG : RulesAsPeg G R) {p : Pat ι β} {e : Peg ι} (hp : AsPeg p e) {pre x : List ι}
    {res : Res Span} (h : parseL G none (pre ++ x) p (blen pre) = some res) : SoundAt R e pre x res := by
  obtain ⟨n, hn⟩ := parses_iff.mpr h
  exact soundN hG n p e hp pre x res hn

theorem Stops.got (hG : RulesAsPeg G R) {p : Pat ι β} {e : Peg ι} (hp : AsPeg p e) {pre x : List ι}
    {r : Option (List ι)} (hs : Stops G p pre x) (hf : Ford R e x r) : Got G p pre x r := by
  obtain ⟨res, h⟩ := hs
  obtain ⟨r', hf', hsh⟩ := sound_of hG hp h
  rw [hf.unique hf']
  exact ⟨res, parses_iff.mpr h, hsh⟩

theorem LeafOk.stops {p : Pat ι β} {e : Peg ι} (h : LeafOk G R p e) (pre x : List ι) :
    Stops G p pre x := by
  obtain ⟨_, _, res, h1, _⟩ := h pre x
  exact ⟨res, parses_iff.mp h1⟩

theorem Got.some' {p : Pat ι β} {pre x y : List ι} (h : Got G p pre x (some y)) :
    ∃ t, x = t ++ y ∧ matL G none (pre ++ x) p (blen pre) =
      some (.ok ⟨blen pre, blen t⟩ (blen (pre ++ t))) := by
  obtain ⟨res, h, t, hx, rfl⟩ := h
  exact ⟨t, hx, by rw [matL_none', blen_append]; exact parses_iff.mp h⟩

theorem Got.none' {p : Pat ι β} {pre x : List ι} (h : Got G p pre x none) :
    ∃ e, matL G none (pre ++ x) p (blen pre) = some (.err e (blen pre)) := by
  obtain ⟨res, h, e, rfl⟩ := h
  exact ⟨e, by rw [matL_none']; exact parses_iff.mp h⟩

theorem Got.stops {p : Pat ι β} {pre x : List ι} {r} (h : Got G p pre x r) :
    ∃ res, matL G none (pre ++ x) p (blen pre) = some res := by
  obtain ⟨res, h, _⟩ := h
  exact ⟨res, by rw [matL_none']; exact parses_iff.mp h⟩

/-- The later position. -/
theorem Got.at' {p : Pat ι β} {pre t y : List ι} {r} (h : Got G p (pre ++ t) y r) :
    ∃ res, matL G none (pre ++ (t ++ y)) p (blen (pre ++ t)) = some res := by
  have := h.stops
  rwa [List.append_assoc] at this

theorem Got.some_at {p : Pat ι β} {pre t y z : List ι} (h : Got G p (pre ++ t) y (some z)) :
    ∃ u, y = u ++ z ∧ matL G none (pre ++ (t ++ y)) p (blen (pre ++ t)) =
      some (.ok ⟨blen (pre ++ t), blen u⟩ (blen (pre ++ t ++ u))) := by
  obtain ⟨u, hu, h⟩ := h.some'
  rw [List.append_assoc] at h
  exact ⟨u, hu, h⟩

theorem Got.none_at {p : Pat ι β} {pre t y : List ι} (h : Got G p (pre ++ t) y none) :
    ∃ e, matL G none (pre ++ (t ++ y)) p (blen (pre ++ t)) = some (.err e (blen (pre ++ t))) := by
  obtain ⟨e, h⟩ := h.none'
  rw [List.append_assoc] at h
  exact ⟨e, h⟩

theorem stops_seq2 {a b : Pat ι β} {ea eb : Peg ι} {pre x : List ι} {M : Nat} {r}
    (iha : ∀ pre x r, pegEv R M ea x = some r → Got G a pre x r)
    (ihb : ∀ pre x r, pegEv R M eb x = some r → Got G b pre x r)
    (h : (pegEv R M ea x = some none ∧ r = none) ∨
      ∃ y, pegEv R M ea x = some (some y) ∧ pegEv R M eb y = some r) :
    ∃ res, seq2 (matL G none (pre ++ x)) a b (blen pre) = some res := by
  rcases h with ⟨h1, rfl⟩ | ⟨y, h1, h2⟩
  · obtain ⟨e, he⟩ := (iha pre x _ h1).none'
    exact ⟨_, by rw [seq2, he]; rfl⟩
  · obtain ⟨t, rfl, ha⟩ := (iha pre x _ h1).some'
    obtain ⟨res, hb⟩ := (ihb (pre ++ t) y r h2).at'
    rw [seq2, ha]; simp only [caseR]; rw [hb]
    cases res with
    | panic => exact ⟨_, rfl⟩
    | err => exact ⟨_, rfl⟩
    | ok s o => simp only [addK]; split <;> exact ⟨_, rfl⟩

theorem stops_three {b c : Pat ι β} {eb ec : Peg ι} {pre t y : List ι} {M : Nat} {r} {s1 : Span} {o : Nat}
    (ihb : ∀ pre x r, pegEv R M eb x = some r → Got G b pre x r)
    (ihc : ∀ pre x r, pegEv R M ec x = some r → Got G c pre x r)
    (h : pegEv R (M + 1) (.seq eb ec) y = some r) :
    ∃ res, caseR (matL G none (pre ++ (t ++ y)) b (blen (pre ++ t)))
        (fun s2 o2 => addK s1 s2 fun s12 => caseR (matL G none (pre ++ (t ++ y)) c o2)
          (fun s3 o3 => addK s12 s3 fun s => some (.ok s o3))
          (fun e _ => some (.err e o)))
        (fun e _ => some (.err e o)) = some res := by
  obtain ⟨M', hM, h⟩ := ev_seq h
  cases hM
  rcases h with ⟨h1, rfl⟩ | ⟨z, h1, h2⟩
  · obtain ⟨e, he⟩ := (ihb (pre ++ t) y _ h1).none_at
    rw [he]; exact ⟨_, rfl⟩
  · obtain ⟨u, rfl, hb⟩ := (ihb (pre ++ t) y _ h1).some_at
    rw [hb]; simp only [caseR, addK]
    split
    · exact ⟨_, rfl⟩
    · obtain ⟨res, hc⟩ := (ihc (pre ++ t ++ u) z r h2).stops
      rw [show pre ++ t ++ u ++ z = pre ++ (t ++ (u ++ z)) by simp] at hc
      rw [hc]
      cases res with
      | panic => exact ⟨_, rfl⟩
      | err => exact ⟨_, rfl⟩
      | ok s o => simp only; split <;> exact ⟨_, rfl⟩

theorem stops_loop (hG : RulesAsPeg G R) {p p' : Pat ι β} {e' : Peg ι} {more more' ok ok' : Nat → Bool}
    {pre t y : List ι} {er er' : Error}
    (hp1 : matL G none (pre ++ (t ++ y)) p (blen pre) = some (.ok ⟨blen pre, blen t⟩ (blen (pre ++ t))))
    (hm0 : more 0 = true) (hm : ∀ k, more (k + 1) = more' k) (hp' : AsPeg p' e')
    (hq : parseL G none (pre ++ t ++ y) p' (blen (pre ++ t)) =
      repL (matL G none (pre ++ t ++ y)) p more' (finish ok' er' (blen (pre ++ t))) 0
        ⟨blen (pre ++ t), 0⟩ (blen (pre ++ t)))
    (hs : Stops G p' (pre ++ t) y) :
    ∃ res, repL (matL G none (pre ++ (t ++ y))) p more (finish ok er (blen pre)) 0
      ⟨blen pre, 0⟩ (blen pre) = some res := by
  obtain ⟨res, hres⟩ := hs
  have hnp : res ≠ .panic := by
    rintro rfl; exact (sound_of hG hp' hres).panic
  rw [hq] at hres
  obtain ⟨n, hn⟩ := (lim_eq_some (approx_repLoop_const _ _ _ _ _ _ _).1 _).mp hres
  rw [List.append_assoc] at hn
  obtain ⟨res', h'⟩ := rebase_rep (more := more) (ok := ok) hm er er' (blen pre) _ n 0 _
    ⟨blen pre, blen t⟩ _ (by simp [blen_append]) (by simp [Span.stop, blen_append]) hnp hn
  refine ⟨res', ?_⟩
  rw [repL_eq, if_pos hm0, hp1]
  have h0 : (⟨blen pre, 0⟩ : Span).addAssign ⟨blen pre, blen t⟩ = some ⟨blen pre, blen t⟩ := by
    have := adj (blen pre) 0 (blen t); simpa using this
  simp only [caseR, addK, h0]
  exact (lim_eq_some (approx_repLoop_const _ _ _ _ _ _ _).1 _).mpr ⟨n, h'⟩

/-- The range `m..` or `m..=n`. -/
def rangeOf (m : Nat) (n : Option Nat) : CRange :=
  ⟨.incl m, match n with | none => .unb | some k => .incl k⟩

theorem counts_rangeOf {m : Nat} {n : Option Nat} (h : ∀ k, n = some k → m ≤ k) :
    Counts (rangeOf m n) m n := by
  refine ⟨h, fun k => ?_⟩
  cases n <;> simp [rangeOf, Bound.allowsFrom, Bound.allowsUpTo]

theorem LoopIs.shift {more ok more' ok' : Nat → Bool} {m n} (h : LoopIs more ok m n) (hn : n ≠ some 0)
    (h' : LoopIs more' ok' (m - 1) (n.map (· - 1))) (k : Nat) : more (k + 1) = more' k := by
  have h1 := h.more_iff (k + 1)
  have h2 := h'.more_iff k
  have : (∀ n', n = some n' → k + 1 < n') ↔ ∀ n', n.map (· - 1) = some n' → k < n' := by
    cases n with
    | none => simp
    | some j => simp; omega
  rw [this, ← h2] at h1
  cases h3 : more (k + 1) <;> cases h4 : more' k <;> simp_all

theorem stops_rep (hG : RulesAsPeg G R) {p : Pat ι β} {e : Peg ι} (hp : AsPeg p e)
    {more ok : Nat → Bool} {m : Nat} {hi : Option Nat} (hl : LoopIs more ok m hi) {er : Error}
    {N : Nat} (ih : ∀ M, M < N → ∀ (p : Pat ι β) e, AsPeg p e → ∀ pre x r, pegEv R M e x = some r →
      Got G p pre x r)
    {pre x : List ι} {r} (h : pegEv R N (.rep e m hi) x = some r) :
    ∃ res, repL (matL G none (pre ++ x)) p more (finish ok er (blen pre)) 0 ⟨blen pre, 0⟩ (blen pre)
      = some res := by
  rcases ev_rep hl.le h with rfl | ⟨hn, M, hM, h1 | ⟨y, r', h1, h2⟩⟩
  · have : more 0 = false := by
      cases hh : more 0 with
      | false => rfl
      | true => have := (hl.more_iff 0).mp hh 0 rfl; omega
    rw [repL_eq, this]
    simp only [Bool.false_eq_true, if_false, finish]; split <;> exact ⟨_, rfl⟩
  · obtain ⟨er', he⟩ := (ih M hM p e hp pre x _ h1).none'
    have : more 0 = true := (hl.more_iff 0).mpr fun n' h' => by
      subst h'; exact Nat.pos_of_ne_zero fun h0 => hn (by rw [h0])
    rw [repL_eq, if_pos this, he]
    simp only [caseR, finish]; split <;> exact ⟨_, rfl⟩
  · obtain ⟨t, rfl, ha⟩ := (ih M hM p e hp pre x _ h1).some'
    have hc : Counts (rangeOf (m - 1) (hi.map (· - 1))) (m - 1) (hi.map (· - 1)) := counts_rangeOf (by
      intro k hk
      cases hi with
      | none => cases hk
      | some j => have := hl.le j rfl; simp at hk; omega)
    have ha' : AsPeg (.rep p (rangeOf (m - 1) (hi.map (· - 1)))) (.rep e (m - 1) (hi.map (· - 1))) :=
      .rep _ _ _ hp hc
    have hg := ih M hM _ _ ha' (pre ++ t) y r' h2
    have h0 : more 0 = true := (hl.more_iff 0).mpr fun n' h' => by
      subst h'; exact Nat.pos_of_ne_zero fun h0 => hn (by rw [h0])
    refine stops_loop hG ha h0 (hl.shift hn (counts_loop hc)) ha' (parseL_rep ..) ?_
    obtain ⟨res, hr, _⟩ := hg
    exact ⟨res, parses_iff.mp hr⟩

/-- One round of a separated list, then the list from there. -/
theorem stops_sep_step (hG : RulesAsPeg G R) {p s : Pat ι β} {e es : Peg ι} (hp : AsPeg p e)
    (hs : AsPeg s es) {min : Nat} {er : Error} {pre x : List ι}
    (h : Got G p pre x none ∨ ∃ t y, x = t ++ y ∧ Got G p pre x (some y) ∧
      (Got G s (pre ++ t) y none ∨ ∃ u z, y = u ++ z ∧ Got G s (pre ++ t) y (some z) ∧
        Stops G (.sep p s true (min - 1)) (pre ++ t ++ u) z)) :
    ∃ res, sepL (matL G none (pre ++ x)) p s true (fun _ => true)
      (finish (fun c => decide (c ≥ min)) er (blen pre)) 0 ⟨blen pre, 0⟩ (blen pre) = some res := by
  rw [sepL_eq]
  simp only [if_true]
  have h0 : ∀ t : List ι, (⟨blen pre, 0⟩ : Span).addAssign ⟨blen pre, blen t⟩ =
      some ⟨blen pre, blen t⟩ := fun t => by
    have := adj (blen pre) 0 (blen t); simpa using this
  rcases h with h | ⟨t, y, rfl, h, h'⟩
  · obtain ⟨_, he⟩ := h.none'
    rw [he]; simp only [caseR, finish]; split <;> exact ⟨_, rfl⟩
  · obtain ⟨t', ht, ha⟩ := h.some'
    have := List.append_cancel_right ht
    subst this
    rw [ha]; simp only [caseR]
    rcases h' with h' | ⟨u, z, rfl, h', h3⟩
    · obtain ⟨_, he⟩ := h'.none_at
      rw [he]; simp only [addK, h0, finish]; split <;> exact ⟨_, rfl⟩
    · obtain ⟨u', hu, hb⟩ := h'.some_at
      have := List.append_cancel_right hu
      subst this
      rw [hb]
      simp only [addK, h0]
      rw [blen_append pre t, adj]
      simp only
      obtain ⟨res, hres⟩ := h3
      have hnp : res ≠ .panic := by
        rintro rfl; exact (sound_of hG (.sep (min - 1) hp hs) hres).panic
      rw [parseL_sep] at hres
      obtain ⟨n, hn⟩ := (lim_eq_some (approx_sepLoop_const _ _ _ _ _ _ _ _ _).1 _).mp hres
      rw [show pre ++ t ++ u ++ z = pre ++ (t ++ (u ++ z)) by simp] at hn
      obtain ⟨res', h''⟩ := rebase_sep (ok := fun c => decide (c ≥ min)) er _ (blen pre) _ n 0 _
        ⟨blen pre, blen t + blen u⟩ _ (by simp [blen_append, Nat.add_assoc])
        (by simp [Span.stop, blen_append, Nat.add_assoc]) hnp hn
      exact ⟨res', (lim_eq_some (approx_sepLoop_const _ _ _ _ _ _ _ _ _).1 _).mpr ⟨n, h''⟩⟩

theorem stops_sep (hG : RulesAsPeg G R) {p s : Pat ι β} {e es : Peg ι} (hp : AsPeg p e)
    (hs : AsPeg s es) {min : Nat} {er : Error} {N : Nat}
    (ih : ∀ M, M < N → ∀ (p : Pat ι β) e, AsPeg p e → ∀ pre x r, pegEv R M e x = some r →
      Got G p pre x r)
    {pre x : List ι} {r} (h : pegEv R N (.list e es min) x = some r) :
    ∃ res, sepL (matL G none (pre ++ x)) p s true (fun _ => true)
      (finish (fun c => decide (c ≥ min)) er (blen pre)) 0 ⟨blen pre, 0⟩ (blen pre) = some res := by
  match min with
  | 0 =>
    obtain ⟨M, rfl, h'⟩ := ev_seq h
    have h : ∃ r', pegEv R M (.star (.seq e es)) x = some r' := by
      rcases h' with ⟨h, _⟩ | ⟨y, h, _⟩ <;> exact ⟨_, h⟩
    obtain ⟨r', h⟩ := h
    -- induction on the repetitions
    have key : ∀ K, K ≤ M → ∀ pre x r' er, pegEv R K (.star (.seq e es)) x = some r' →
        ∃ res, sepL (matL G none (pre ++ x)) p s true (fun _ => true)
          (finish (fun c => decide (c ≥ 0)) er (blen pre)) 0 ⟨blen pre, 0⟩ (blen pre) = some res := by
      intro K
      induction K with
      | zero => intro _ _ _ _ _ h; simp [pegEv] at h
      | succ K ihK =>
        intro hK pre x r' er h
        obtain ⟨K', hK', h⟩ := ev_star h
        cases hK'
        apply stops_sep_step hG hp hs
        rcases h with ⟨h1, _⟩ | ⟨w, h1, h2⟩
        · obtain ⟨J, rfl, ⟨h3, _⟩ | ⟨y, h3, h4⟩⟩ := ev_seq h1
          · exact .inl (ih J (by omega) p e hp pre x _ h3)
          · have hg := ih J (by omega) p e hp pre x _ h3
            obtain ⟨t, rfl, _⟩ := hg.some'
            exact .inr ⟨t, y, rfl, hg, .inl (ih J (by omega) s es hs _ _ _ h4)⟩
        · obtain ⟨J, rfl, ⟨h3, h4⟩ | ⟨y, h3, h4⟩⟩ := ev_seq h1
          · cases h4
          · have hg := ih J (by omega) p e hp pre x _ h3
            obtain ⟨t, rfl, _⟩ := hg.some'
            have hg2 := ih J (by omega) s es hs (pre ++ t) y _ h4
            obtain ⟨u, rfl, _⟩ := hg2.some'
            refine .inr ⟨t, u ++ w, rfl, hg, .inr ⟨u, w, rfl, hg2, ?_⟩⟩
            obtain ⟨res, hr⟩ := ihK (by omega) (pre ++ t ++ u) w r' .separate h2
            exact ⟨res, by rw [parseL_sep]; exact hr⟩
    exact key M (Nat.le_refl _) pre x r' er h
  | 1 =>
    apply stops_sep_step hG hp hs
    obtain ⟨M, rfl, ⟨h1, _⟩ | ⟨y, h1, h2⟩⟩ := ev_seq h
    · exact .inl (ih M (by omega) p e hp pre x _ h1)
    · have hg := ih M (by omega) p e hp pre x _ h1
      obtain ⟨t, rfl, _⟩ := hg.some'
      refine .inr ⟨t, y, rfl, hg, ?_⟩
      obtain ⟨M', rfl, h2'⟩ := ev_alt h2
      have h2 : ∃ r', pegEv R M' (.seq es (.list e es 0)) y = some r' := by
        rcases h2' with ⟨_, h, _⟩ | ⟨h, _⟩ <;> exact ⟨_, h⟩
      obtain ⟨r', h2⟩ := h2
      obtain ⟨M'', rfl, ⟨h3, _⟩ | ⟨z, h3, h4⟩⟩ := ev_seq h2
      · exact .inl (ih M'' (by omega) s es hs _ _ _ h3)
      · have hg2 := ih M'' (by omega) s es hs (pre ++ t) y _ h3
        obtain ⟨u, rfl, _⟩ := hg2.some'
        refine .inr ⟨u, z, rfl, hg2, ?_⟩
        obtain ⟨res, hr, _⟩ := ih M'' (by omega) _ _ (.sep 0 hp hs) (pre ++ t ++ u) z r' h4
        exact ⟨res, parses_iff.mp hr⟩
  | k + 2 =>
    apply stops_sep_step hG hp hs
    obtain ⟨M, rfl, ⟨h1, _⟩ | ⟨y, h1, h2⟩⟩ := ev_seq h
    · exact .inl (ih M (by omega) p e hp pre x _ h1)
    · have hg := ih M (by omega) p e hp pre x _ h1
      obtain ⟨t, rfl, _⟩ := hg.some'
      refine .inr ⟨t, y, rfl, hg, ?_⟩
      obtain ⟨M'', rfl, ⟨h3, _⟩ | ⟨z, h3, h4⟩⟩ := ev_seq h2
      · exact .inl (ih M'' (by omega) s es hs _ _ _ h3)
      · have hg2 := ih M'' (by omega) s es hs (pre ++ t) y _ h3
        obtain ⟨u, rfl, _⟩ := hg2.some'
        refine .inr ⟨u, z, rfl, hg2, ?_⟩
        obtain ⟨res, hr, _⟩ := ih M'' (by omega) _ _ (.sep (k + 1) hp hs) (pre ++ t ++ u) z r h4
        exact ⟨res, parses_iff.mp hr⟩

theorem caseO_ok' {α γ : Type} (a : α) (f : α → Option (Res γ)) (g : Error → Option (Res γ)) :
    caseO (some (.ok a)) f g = f a := rfl

theorem dropB_cons_of {d : List ι} {o : Nat} {a : ι} {y : List ι} (h : dropB d o = some (a :: y)) :
    dropB d (o + Item.size a) = some y := by
  obtain ⟨pre, rfl, rfl⟩ := dropB_eq_some.mp h
  have := dropB_append (pre ++ [a]) y
  simpa using this

theorem ev_guard {N : Nat} {f : ι → Bool} {e : Peg ι} {a : ι} {x : List ι} {r} (ha : f a = true)
    (h : pegEv R N (.guard f e) (a :: x) = some r) : ∃ M r', M < N ∧ pegEv R M e (a :: x) = some r' := by
  have hand : Ford R (.and (.cls f)) (a :: x) (some (a :: x)) := .not_ok (.not_fail (.cls_ok ha))
  obtain ⟨M, rfl, ⟨h1, _⟩ | ⟨y, h1, h2⟩⟩ := ev_seq h
  · cases hand.unique (ford_of_ev h1)
  · cases hand.unique (ford_of_ev h1)
    obtain ⟨M', rfl, h3⟩ := ev_seq h2
    have h3 : ∃ r', pegEv R M' (.and e) (a :: x) = some r' := by
      rcases h3 with ⟨h, _⟩ | ⟨y, h, _⟩ <;> exact ⟨_, h⟩
    obtain ⟨r', h3⟩ := h3
    obtain ⟨M1, r1, rfl, h4⟩ := ev_not h3
    obtain ⟨M2, r2, rfl, h5⟩ := ev_not h4
    exact ⟨M2, r2, by omega, h5⟩

/-- Testing an item stops where the guard does. -/
theorem test_stops {q : Pat ι β} {e : Peg ι} {N : Nat}
    (ihq : ∀ M, M < N → ∀ x r, pegEv R M e x = some r → Got G q [] x r) (u : Neu ι) {d : List ι} {o k : Nat}
    {a : ι} {y : List ι} {M : Nat} (hM : M ≤ N) {r} (hd : dropB d (o + k) = some (a :: y))
    (h : pegEv R M (.guard u.isMatch e) (a :: y) = some r) :
    ∃ res, testItem (matL G none) d o u (.regex q) (k, a) = some res := by
  simp only [testItem]
  cases ha : u.isMatch a with
  | false => exact ⟨_, rfl⟩
  | true =>
    obtain ⟨M', r', hlt, he⟩ := ev_guard ha h
    obtain ⟨res, hr⟩ := (ihq M' (by omega) _ _ he).stops
    simp only [List.nil_append, blen_nil] at hr
    simp only [if_true, check, origAt_ok.mpr hd, hr]
    cases res <;> exact ⟨_, rfl⟩

theorem scan_stops {q : Pat ι β} {e : Peg ι} {N : Nat}
    (ihq : ∀ M, M < N → ∀ x r, pegEv R M e x = some r → Got G q [] x r) (u : Neu ι) {more : Nat → Bool} {hi : Option Nat}
    (hl : MoreIs more hi) {d : List ι} {o : Nat} {M : Nat} (hM : M ≤ N) {m c k : Nat} {beg : Option Nat} {x : List ι} {r}
    (hd : dropB d (o + k) = some x) (hmn : ∀ j, hi.map (· - c) = some j → m ≤ j)
    (ht : TestOk R (testItem (matL G none) d o u (.regex q)) (.guard u.isMatch e) k x)
    (h : pegEv R M (.rep (.guard u.isMatch e) m (hi.map (· - c))) x = some r) :
    ∃ out, scan (testItem (matL G none) d o u (.regex q)) more c beg (indices k x) = some out := by
  induction x generalizing M m c k beg r with
  | nil => exact ⟨_, rfl⟩
  | cons a x ih =>
    simp only [indices_cons, scan]
    split
    · next hm =>
      have hm := (hl c).mp hm
      rcases ev_rep hmn h with h0 | ⟨hn, M', hM', h1⟩
      · cases hi with
        | none => cases h0
        | some j => have := hm j rfl; simp at h0; omega
      · have h1' : ∃ r', pegEv R M' (.guard u.isMatch e) (a :: x) = some r' := by
          rcases h1 with h | ⟨_, _, h, _⟩ <;> exact ⟨_, h⟩
        obtain ⟨r', h1'⟩ := h1'
        obtain ⟨res, hres⟩ := test_stops ihq u (by omega) hd h1'
        rw [hres]
        rcases res with b | e' | _
        · cases b with
          | false => exact ⟨_, rfl⟩
          | true =>
            simp only
            rcases h1 with h1 | ⟨y, r'', h1, h2⟩
            · -- the test said yes, so the guard matches
              obtain ⟨b, hb, hf⟩ := ht [] a x rfl _ hres
              cases hb
              cases hf.unique (ford_of_ev h1)
            · obtain ⟨_, hy, _⟩ := guard_ok (ford_of_ev h1)
              cases hy
              rw [Option.map_map] at h2
              refine ih (M := M') (m := m - 1) (c := c + 1) (by omega) ?_ ?_ ht.tail h2
              · rw [← Nat.add_assoc]; exact dropB_cons_of hd
              · intro j hj
                cases hi with
                | none => cases hj
                | some i =>
                  have h3 := hmn (i - c) rfl
                  simp at hj; omega
        · exact ⟨_, rfl⟩
        · exact ⟨_, rfl⟩
    · exact ⟨_, rfl⟩

theorem test_all (hG : RulesAsPeg G R) {q : Pat ι β} {e : Peg ι} (hq : AsPeg q e) (u : Neu ι) {pre x : List ι} :
    TestOk R (testItem (matL G none) (pre ++ x) (blen pre) u (.regex q)) (.guard u.isMatch e) 0 x :=
  regex_test u fun y res h => by
    rw [matL_none'] at h
    exact sound_of hG hq (pre := []) h

section Units
variable {mt : List ι → Pat ι β → Nat → Option (Res Span)} {u v : Neu ι} {c : Cond ι β} {d x : List ι} {o : Nat}

theorem spanK_stops (o : Nat) (l : Option Nat) : ∃ res, spanK o l = some res := by
  cases l <;> exact ⟨_, rfl⟩

theorem caseO_stops {α γ : Type} {r : Option (Out α)} {f : α → Option (Res γ)} {g : Error → Option (Res γ)}
    (h : ∃ y, r = some y) (hf : ∀ a, ∃ res, f a = some res) (hg : ∀ e, ∃ res, g e = some res) :
    ∃ res, caseO r f g = some res := by
  obtain ⟨y, rfl⟩ := h
  rcases y with a | e | _
  · exact hf a
  · exact hg e
  · exact ⟨_, rfl⟩

theorem stops_onceU (hd : dropB d o = some x) (h : ∀ a y, x = a :: y → ∃ r, testItem mt d o u c (0, a) = some r) :
    ∃ res, onceParse mt d u c o = some res := by
  simp only [onceParse, remK_eq hd, peek_eq hd, caseO_ok']
  cases x with
  | nil => exact ⟨_, rfl⟩
  | cons a y =>
    refine caseO_stops (h a y rfl) (fun b => ?_) (fun _ => ⟨_, rfl⟩)
    cases b
    · exact ⟨_, rfl⟩
    · simp only [if_true]; exact spanK_stops _ _

theorem stops_optUU (hd : dropB d o = some x) (h : ∀ a y, x = a :: y → ∃ r, testItem mt d o u c (0, a) = some r) :
    ∃ res, optUParse mt d u c o = some res := by
  simp only [optUParse, remK_eq hd, peek_eq hd, caseO_ok']
  cases x with
  | nil => exact ⟨_, rfl⟩
  | cons a y =>
    refine caseO_stops (h a y rfl) (fun b => ?_) (fun _ => ⟨_, rfl⟩)
    cases b
    · exact ⟨_, rfl⟩
    · simp only [if_true]; exact spanK_stops _ _

theorem stops_many0U (hd : dropB d o = some x)
    (h : ∃ out, scan (testItem mt d o u c) (fun _ => true) 0 none (indices 0 x) = some out) :
    ∃ res, many0Parse mt d u c o = some res := by
  simp only [many0Parse, remK_eq hd, peek_eq hd, caseO_ok']
  refine caseO_stops h (fun s => ?_) (fun _ => ⟨_, rfl⟩)
  split
  · exact ⟨_, rfl⟩
  · exact spanK_stops _ _

theorem stops_many1U (hd : dropB d o = some x)
    (h : ∃ out, scan (testItem mt d o u c) (fun _ => true) 0 none (indices 0 x) = some out) :
    ∃ res, many1Parse mt d u c o = some res := by
  simp only [many1Parse, remK_eq hd, peek_eq hd, caseO_ok']
  refine caseO_stops h (fun s => ?_) (fun _ => ⟨_, rfl⟩)
  split
  · exact ⟨_, rfl⟩
  · exact spanK_stops _ _

theorem stops_betweenU {m n : Nat} (hd : dropB d o = some x)
    (h : ∃ out, scan (testItem mt d o u c) (fun k => decide (k < n)) 0 none (indices 0 x) = some out) :
    ∃ res, betweenParse mt d m n u c o = some res := by
  simp only [betweenParse, remK_eq hd, peek_eq hd, caseO_ok']
  split
  · refine caseO_stops h (fun s => ?_) (fun _ => ⟨_, rfl⟩)
    split
    · exact spanK_stops _ _
    · exact ⟨_, rfl⟩
  · exact ⟨_, rfl⟩

theorem stops_timesU {r : CRange} (hd : dropB d o = some x)
    (h : ∃ out, scan (testItem mt d o u c) r.more 0 none (indices 0 x) = some out) :
    ∃ res, timesParse mt d r u c o = some res := by
  simp only [timesParse, remK_eq hd, peek_eq hd, caseO_ok']
  split
  · refine caseO_stops h (fun s => ?_) (fun _ => ⟨_, rfl⟩)
    split
    · exact spanK_stops _ _
    · exact ⟨_, rfl⟩
  · exact ⟨_, rfl⟩

theorem stops_thenUU (hd : dropB d o = some x)
    (h1 : ∀ a y, x = a :: y → ∃ r, testItem mt d o u c (0, a) = some r)
    (h2 : ∀ a b y, x = a :: b :: y → testItem mt d o u c (0, a) = some (.ok true) →
      ∃ r, testItem mt d o v c (Item.size a, b) = some r) :
    ∃ res, thenUParse mt d u v c o = some res := by
  simp only [thenUParse, remK_eq hd, peek_eq hd, caseO_ok']
  split
  · match x, hd with
    | [], _ => exact ⟨_, rfl⟩
    | [a], _ => exact ⟨_, rfl⟩
    | a :: b :: y, hd =>
      obtain ⟨r, hr⟩ := h1 a _ rfl
      simp only [indices_cons, Nat.zero_add, hr]
      rcases r with b1 | e | _
      · cases b1
        · exact ⟨_, rfl⟩
        · simp only [caseO_ok', if_true]
          refine caseO_stops (h2 a b y rfl hr) (fun b2 => ?_) (fun _ => ⟨_, rfl⟩)
          cases b2
          · exact ⟨_, rfl⟩
          · simp only [if_true]; exact spanK_stops _ _
      · exact ⟨_, rfl⟩
      · exact ⟨_, rfl⟩
  · exact ⟨_, rfl⟩

end Units

theorem complete_ev (hG : RulesAsPeg G R) (N : Nat) : ∀ (p : Pat ι β) e, AsPeg p e → ∀ pre x r,
    pegEv R N e x = some r → Got G p pre x r := by
  induction N using Nat.strongRecOn with
  | _ N ih =>
    intro p e hp pre x r h
    refine Stops.got hG hp ?_ (ford_of_ev h)
    unfold Stops
    induction hp generalizing pre x r with
    | empty => exact (pegLeaf_empty (R := R)).stops pre x
    | fail => exact (pegLeaf_fail (R := R)).stops pre x
    | anchorEnd => exact (pegLeaf_anchorEnd (R := R)).stops pre x
    | consumeAll => exact (pegLeaf_consumeAll (R := R)).stops pre x
    | lit l => exact (pegLeaf_lit (R := R) l).stops pre x
    | once u => exact (pegLeaf_once (R := R) u).stops pre x
    | many0 u => exact (pegLeaf_many0 (R := R) u).stops pre x
    | many1 u => exact (pegLeaf_many1 (R := R) u).stops pre x
    | optU u => exact (pegLeaf_optU (R := R) u).stops pre x
    | between u m n hu hmn => exact (pegLeaf_between (R := R) u m n hu hmn).stops pre x
    | times u rg m n hu hc => exact (pegLeaf_times (R := R) u rg m n hu hc).stops pre x
    | thenU u v hu hv => exact (pegLeaf_thenU (R := R) u v hu hv).stops pre x
    | @onceIf u q e hq _ =>
      rw [parseL_once]
      exact stops_onceU (drop_here pre x) fun a y hx => test_stops (fun M hM x r => ih M hM _ _ hq [] x r) u
        (Nat.le_refl _) (by rw [← hx]; exact drop_here pre x) (by rw [← hx]; exact h)
    | @optUIf u q e hq _ =>
      rw [parseL_optU]
      have h' : ∃ r', pegEv R N (.guard u.isMatch e) x = some r' := by
        obtain ⟨M, rfl, ⟨y, h1, _⟩ | ⟨h1, _⟩⟩ := ev_alt h <;> exact ⟨_, pegEv_succ h1⟩
      obtain ⟨r', h'⟩ := h'
      exact stops_optUU (drop_here pre x) fun a y hx => test_stops (fun M hM x r => ih M hM _ _ hq [] x r) u
        (Nat.le_refl _) (by rw [← hx]; exact drop_here pre x) (by rw [← hx]; exact h')
    | @many0If u q e hq _ =>
      rw [parseL_many0]
      exact stops_many0U (drop_here pre x) (scan_stops (hi := none) (m := 0) (c := 0) (k := 0) (fun M hM x r => ih M hM _ _ hq [] x r) u
        (by simp [MoreIs]) (Nat.le_refl _) (drop_here pre x) (by simp) (test_all hG hq u) h)
    | @many1If u q e hq _ =>
      rw [parseL_many1]
      exact stops_many1U (drop_here pre x) (scan_stops (hi := none) (m := 1) (c := 0) (k := 0) (fun M hM x r => ih M hM _ _ hq [] x r) u
        (by simp [MoreIs]) (Nat.le_refl _) (drop_here pre x) (by simp) (test_all hG hq u) h)
    | @betweenIf u m n q e hu hmn hh hq _ =>
      rw [parseL_between]
      exact stops_betweenU (drop_here pre x) (scan_stops (hi := some n) (m := m) (c := 0) (k := 0) (fun M hM x r => ih M hM _ _ hq [] x r) u
        (by simp [MoreIs]) (Nat.le_refl _) (drop_here pre x) (by simpa using hmn) (test_all hG hq u) h)
    | @timesIf u rg m n q e hu hc hh hq _ =>
      rw [parseL_times]
      have h0 : n.map (· - 0) = n := by cases n <;> simp
      exact stops_timesU (drop_here pre x) (scan_stops (hi := n) (m := m) (c := 0) (k := 0) (fun M hM x r => ih M hM _ _ hq [] x r) u
        (moreIs_counts hc).1 (Nat.le_refl _) (drop_here pre x) (by rw [h0]; exact hc.1) (test_all hG hq u) (by rw [h0]; exact h))
    | @thenUIf u v q e hu hv hh hq _ =>
      rw [parseL_thenU]
      obtain ⟨M, rfl, hs⟩ := ev_seq h
      have h1 : ∃ r', pegEv R M (.guard u.isMatch e) x = some r' := by
        rcases hs with ⟨h, _⟩ | ⟨_, h, _⟩ <;> exact ⟨_, h⟩
      obtain ⟨r', h1⟩ := h1
      refine stops_thenUU (drop_here pre x) (fun a y hx => ?_) (fun a b y hx ht => ?_)
      · exact test_stops (fun M hM x r => ih M hM _ _ hq [] x r) u
          (Nat.le_succ M) (by rw [← hx]; exact drop_here pre x) (by rw [← hx]; exact h1)
      · obtain ⟨_, hb, hf⟩ := test_all hG hq u (pre := pre) (x := x) [] a (b :: y) hx _ ht
        cases hb
        subst hx
        rcases hs with ⟨h2, _⟩ | ⟨z, h2, h3⟩
        · cases hf.unique (ford_of_ev h2)
        · cases hf.unique (ford_of_ev h2)
          exact test_stops (fun M hM x r => ih M hM _ _ hq [] x r) v (Nat.le_succ M)
            (dropB_cons_of (drop_here pre _)) h3
    | choice_nil er => exact (pegLeaf_choice_nil (R := R) er).stops pre x
    | cell i =>
      rcases hG i with ⟨q, hq, ha⟩ | ⟨hq, _⟩
      · cases N with
        | zero => simp [pegEv] at h
        | succ M =>
          obtain ⟨res, hr, _⟩ := ih M (by omega) q _ ha pre x r h
          exact ⟨res, by rw [parseL_cell, hq]; exact parses_iff.mp hr⟩
      · exact ⟨_, by rw [parseL_cell, hq]⟩
    | map f _ ihq => rw [parseL_map, matL_none']; exact ihq pre x r h
    | pat _ ihq => rw [parseL_pat, matL_none']; exact ihq pre x r h
    | thn ha hb _ _ =>
      obtain ⟨M, rfl, h'⟩ := ev_seq h
      rw [parseL_thn]
      exact stops_seq2 (ih M (by omega) _ _ ha) (ih M (by omega) _ _ hb) h'
    | pre ha hb _ _ =>
      obtain ⟨M, rfl, h'⟩ := ev_seq h
      rw [parseL_pre]
      exact stops_seq2 (ih M (by omega) _ _ ha) (ih M (by omega) _ _ hb) h'
    | suf ha hb _ _ =>
      obtain ⟨M, rfl, h'⟩ := ev_seq h
      rw [parseL_suf]
      exact stops_seq2 (ih M (by omega) _ _ ha) (ih M (by omega) _ _ hb) h'
    | @enclose a b c ea eb ec ha hb hc _ _ _ =>
      obtain ⟨M, rfl, ⟨h1, _⟩ | ⟨y, h1, h2⟩⟩ := ev_seq h
      · obtain ⟨er, he⟩ := (ih M (by omega) _ _ ha pre x _ h1).none'
        rw [parseL_enclose, he]; exact ⟨_, rfl⟩
      · obtain ⟨t, rfl, he⟩ := (ih M (by omega) _ _ ha pre x _ h1).some'
        rw [parseL_enclose, he]
        obtain ⟨M', rfl, _⟩ := ev_seq h2
        exact stops_three (ih M' (by omega) _ _ hb) (ih M' (by omega) _ _ hc) h2
    | @sepOnce a b c ea eb ec ha hb hc _ _ _ =>
      obtain ⟨M, rfl, ⟨h1, _⟩ | ⟨y, h1, h2⟩⟩ := ev_seq h
      · obtain ⟨er, he⟩ := (ih M (by omega) _ _ ha pre x _ h1).none'
        rw [parseL_sepOnce, he]; exact ⟨_, rfl⟩
      · obtain ⟨t, rfl, he⟩ := (ih M (by omega) _ _ ha pre x _ h1).some'
        rw [parseL_sepOnce, he]
        obtain ⟨M', rfl, _⟩ := ev_seq h2
        have h0 : (⟨blen pre, 0⟩ : Span).addAssign ⟨blen pre, blen t⟩ = some ⟨blen pre, blen t⟩ := by
          have := adj (blen pre) 0 (blen t); simpa using this
        simp only [caseR]
        rw [addK, h0]
        exact stops_three (ih M' (by omega) _ _ hb) (ih M' (by omega) _ _ hc) h2
    | @ifThen a c b ea et eb ha hc hb _ _ _ =>
      obtain ⟨M, rfl, ⟨h1, _⟩ | ⟨y, h1, h2⟩⟩ := ev_seq h
      · obtain ⟨er, he⟩ := (ih M (by omega) _ _ ha pre x _ h1).none'
        rw [parseL_ifThen, he]; exact ⟨_, rfl⟩
      · obtain ⟨t, rfl, he⟩ := (ih M (by omega) _ _ ha pre x _ h1).some'
        rw [parseL_ifThen, he]
        simp only [caseR]
        obtain ⟨M', rfl, h2'⟩ := ev_alt h2
        have h2 : ∃ r', pegEv R M' (.seq et eb) y = some r' := by
          rcases h2' with ⟨_, h, _⟩ | ⟨h, _⟩ <;> exact ⟨_, h⟩
        obtain ⟨r', h2⟩ := h2
        obtain ⟨M'', rfl, h3⟩ := ev_seq h2
        have hthree := stops_three (s1 := ⟨blen pre, blen t⟩) (o := blen pre) (pre := pre) (t := t)
          (ih M'' (by omega) _ _ hc) (ih M'' (by omega) _ _ hb) h2
        rcases h3 with ⟨h3, _⟩ | ⟨z, h3, _⟩
        · obtain ⟨er, he'⟩ := (ih M'' (by omega) _ _ hc (pre ++ t) y _ h3).none_at
          rw [he']; exact ⟨_, rfl⟩
        · obtain ⟨u, rfl, he'⟩ := (ih M'' (by omega) _ _ hc (pre ++ t) y _ h3).some_at
          rw [he'] at hthree ⊢
          exact hthree
    | @or a b ea eb ha hb _ _ =>
      rw [parseL_or]
      obtain ⟨M, rfl, ⟨y, h1, _⟩ | ⟨h1, h2⟩⟩ := ev_alt h
      · obtain ⟨t, rfl, he⟩ := (ih M (by omega) _ _ ha pre x _ h1).some'
        rw [he]; exact ⟨_, rfl⟩
      · obtain ⟨er, he⟩ := (ih M (by omega) _ _ ha pre x _ h1).none'
        obtain ⟨res, he'⟩ := (ih M (by omega) _ _ hb pre x _ h2).stops
        rw [he]; simp only [caseR]; rw [he']
        cases res <;> exact ⟨_, rfl⟩
    | @opt q e hq _ =>
      rw [parseL_opt]
      obtain ⟨M, rfl, ⟨y, h1, _⟩ | ⟨h1, _⟩⟩ := ev_alt h
      · obtain ⟨t, rfl, he⟩ := (ih M (by omega) _ _ hq pre x _ h1).some'
        rw [he]; exact ⟨_, rfl⟩
      · obtain ⟨er, he⟩ := (ih M (by omega) _ _ hq pre x _ h1).none'
        rw [he]; exact ⟨_, rfl⟩
    | @isnt q e hq _ =>
      rw [parseL_assert]
      obtain ⟨M, r', rfl, h1⟩ := ev_not h
      obtain ⟨res, he⟩ := (ih M (by omega) _ _ hq pre x _ h1).stops
      rw [he]
      cases res <;> exact ⟨_, rfl⟩
    | @is q e hq _ =>
      rw [parseL_assert]
      obtain ⟨M, r', rfl, h1⟩ := ev_not h
      obtain ⟨M', r'', rfl, h2⟩ := ev_not h1
      obtain ⟨res, he⟩ := (ih M' (by omega) _ _ hq pre x _ h2).stops
      rw [he]
      cases res <;> exact ⟨_, rfl⟩
    | @choice_cons er q e v items es hq hi _ _ =>
      rw [parseL_choice]
      obtain ⟨M, rfl, ⟨y, h1, _⟩ | ⟨h1, h2⟩⟩ := ev_alt h
      · obtain ⟨t, rfl, he⟩ := (ih M (by omega) _ _ hq pre x _ h1).some'
        simp only [choiceLoop, he]; exact ⟨_, rfl⟩
      · obtain ⟨er', he⟩ := (ih M (by omega) _ _ hq pre x _ h1).none'
        obtain ⟨res, hr, _⟩ := ih M (by omega) _ _ hi pre x _ h2
        rw [parses_iff, parseL_choice] at hr
        refine ⟨res, ?_⟩
        simp only [choiceLoop, he, caseR]
        exact hr
    | rep r m hi hq hc _ =>
      rw [parseL_rep]
      exact stops_rep hG hq (counts_loop hc) ih h
    | collect m hq _ =>
      rw [parseL_collect]
      exact stops_rep hG hq (collect_loop m) ih h
    | @rep2 q e m hi hq hmh _ =>
      rw [parseL_rep2]
      have hc : Counts (rangeOf m (some hi)) m (some hi) := counts_rangeOf (by intro k hk; cases hk; exact hmh)
      have hl := counts_loop hc
      have hmore : ∀ k, (rangeOf m (some hi)).more k = true ↔ k < hi := by
        intro k; rw [hl.more_iff]; simp
      have hok : (rangeOf m (some hi)).contains hi = true := (hl.ok_iff hi).mpr ⟨hmh, by simp⟩
      obtain ⟨M, rfl, hseq⟩ := ev_seq h
      have hrep : ∃ r', pegEv R M (.rep e m (some hi)) x = some r' ∧
          ∀ y, r' = some y → ∃ r'', pegEv R M (.not e) y = some r'' := by
        rcases hseq with ⟨h1, _⟩ | ⟨y, h1, h2⟩
        · exact ⟨_, h1, by simp⟩
        · exact ⟨_, h1, fun z hz => by cases hz; exact ⟨_, h2⟩⟩
      obtain ⟨r', h1, hnext⟩ := hrep
      obtain ⟨res, hr, hshape⟩ := ih M (by omega) _ _ (.rep _ m (some hi) hq hc) pre x _ h1
      rw [parses_iff, parseL_rep] at hr
      obtain ⟨n, hn⟩ := (lim_eq_some (approx_repLoop_const _ _ _ _ _ _ _).1 _).mp hr
      obtain ⟨n', res', hn'⟩ := rep2_stops
        (ok := fun c => decide (m ≤ c) && decide (c ≤ hi)) hmore hok _ .repeat2 _ (blen pre) n 0
        (by omega) _ _ hn (by
          rintro s o' rfl
          obtain ⟨t, y, rfl, rfl, rfl, rfl⟩ := hshape.ok
          obtain ⟨r'', h2⟩ := hnext y rfl
          obtain ⟨M', r3, rfl, h3⟩ := ev_not h2
          obtain ⟨res3, h4⟩ := (ih M' (by omega) _ _ hq (pre ++ t) y _ h3).at'
          exact ⟨res3, by rw [blen_append] at h4; exact h4⟩)
      exact ⟨res', (lim_eq_some (approx_repLoop_const _ _ _ _ _ _ _).1 _).mpr ⟨n', hn'⟩⟩
    | sep min hq hs _ _ =>
      rw [parseL_sep]
      exact stops_sep hG hq hs ih h
    | sepCollect min hq hs _ _ =>
      rw [parseL_sepCollect]
      exact stops_sep hG hq hs ih h

end Neure
