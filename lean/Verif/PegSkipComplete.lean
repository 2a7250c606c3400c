import Verif.PegSkip
/-!
# C62, the other direction: a skipping context stops when the parsing expression does
-/

namespace Neure

set_option linter.unusedSectionVars false
set_option linter.unusedSimpArgs false

namespace Skip

variable {ι β : Type} [Item ι] {G : Rules ι β} {R : Nat → Peg ι} {q : Pat ι β} {W : Peg ι}

/-- `x` is what is left of `d` at offset `o`. -/
def Pos (d : List ι) (o : Nat) (x : List ι) : Prop := ∃ pre, d = pre ++ x ∧ o = blen pre

theorem Pos.step {d : List ι} {o : Nat} {x t y : List ι} (h : Pos d o x) (hx : x = t ++ y) :
    Pos d (o + blen t) y := by
  obtain ⟨pre, rfl, rfl⟩ := h
  exact ⟨pre ++ t, by rw [hx]; simp, by rw [blen_append]⟩

/-- `try_mat` does what the parsing expression does, on all evaluations shorter than `N`. -/
def IHM (W : Peg ι) (G : Rules ι β) (R : Nat → Peg ι) (q : Pat ι β) (N : Nat) : Prop :=
  ∀ p e, AsPegIn W p e → ∀ M, M < N → ∀ d o x r, Pos d o x → pegEv R M (.seq W e) x = some r →
    (∃ y s o', r = some y ∧ Pos d o' y ∧ matL G (some q) d p o = some (.ok s o')) ∨
    (r = none ∧ ∃ er o', matL G (some q) d p o = some (.err er o'))

theorem IHM.mono {N N' : Nat} (h : IHM W G R q N) (hN : N' ≤ N) : IHM W G R q N' :=
  fun p e hp M hM => h p e hp M (by omega)

/-- The run of a pattern stops. -/
def StopsIn (G : Rules ι β) (q : Pat ι β) (d : List ι) (p : Pat ι β) (o : Nat) : Prop :=
  ∃ res, parseL G (some q) d p o = some res

theorem sound_pos (hq : SkipReads G R q W) (hi : SkipOnce R W) (hG : RulesAsPegIn W G R)
    {p : Pat ι β} {e : Peg ι} (hp : AsPegIn W p e) {d : List ι} {o : Nat} {x r}
    (hd : Pos d o x) (hf : Ford R (.seq W e) x r) {res} (h : matL G (some q) d p o = some res) :
    (∃ y s o', r = some y ∧ Pos d o' y ∧ res = .ok s o') ∨ (r = none ∧ ∃ er o', res = .err er o') := by
  obtain ⟨n, hn⟩ := runs_iff.mpr h
  obtain ⟨pre, rfl, rfl⟩ := hd
  rcases soundM hq hi (soundN hq hi hG n) p e hp pre x res hn with
    ⟨t, y, s, hx, hf', hr, _⟩ | ⟨er, w, z, hx, hf', _, hr⟩
  · exact .inl ⟨y, s, _, hf.unique hf', Pos.step ⟨pre, rfl, rfl⟩ hx, hr⟩
  · exact .inr ⟨hf.unique hf', er, _, hr⟩

/-- Termination of `try_mat` from termination of `try_parse`. -/
theorem ihm_of (hq : SkipReads G R q W) (hi : SkipOnce R W) (hG : RulesAsPegIn W G R) {N : Nat}
    (ih : ∀ M, M < N → ∀ (p : Pat ι β) e, AsPegIn W p e → ∀ d o x r, Pos d o x →
      pegEv R M e x = some r → StopsIn G q d p o) : IHM W G R q (N + 1) := by
  intro p e hp M hM d o x r hd h
  have hf := ford_of_ev h
  have hstop : ∃ res, matL G (some q) d p o = some res := by
    obtain ⟨M', rfl, h'⟩ := ev_seq h
    have hw : ∃ rw, pegEv R M' W x = some rw := by
      rcases h' with ⟨h1, _⟩ | ⟨y, h1, _⟩ <;> exact ⟨_, h1⟩
    obtain ⟨rw', hw⟩ := hw
    obtain ⟨pre, rfl, rfl⟩ := hd
    obtain ⟨resq, hrq⟩ := hq.halt pre x _ (ford_of_ev hw)
    have hrq' := runs_iff.mp hrq
    rw [matL_some, hrq']
    rcases hq.run pre x _ hrq with ⟨t, y, s, hx, hfw, rfl⟩ | ⟨hfw, er, rfl⟩
    · simp only [caseR]
      rcases h' with ⟨h1, _⟩ | ⟨y', h1, h2⟩
      · cases hfw.unique (ford_of_ev h1)
      · cases hfw.unique (ford_of_ev h1)
        exact ih M' (by omega) p e hp _ _ y r (Pos.step ⟨pre, rfl, rfl⟩ hx) h2
    · exact ⟨_, rfl⟩
  obtain ⟨res, hres⟩ := hstop
  rcases sound_pos hq hi hG hp hd hf hres with ⟨y, s, o', hr, hd', rfl⟩ | ⟨hr, er, o', rfl⟩
  · exact .inl ⟨y, s, o', hr, hd', hres⟩
  · exact .inr ⟨hr, er, o', hres⟩

/-- Rounds of a repetition, each shorter than `N`. -/
inductive LoopEv (R : Nat → Peg ι) (N : Nat) (E : Peg ι) (more : Nat → Bool) : Nat → List ι → Prop where
  | done {c x} : more c = false → LoopEv R N E more c x
  | stop {c x M} : more c = true → M < N → pegEv R M E x = some none → LoopEv R N E more c x
  | step {c x y M} : more c = true → M < N → pegEv R M E x = some (some y) →
      LoopEv R N E more (c + 1) y → LoopEv R N E more c x

theorem finish_stops {ok : Nat → Bool} {er : Error} {b c : Nat} {t : Span} {o : Nat} :
    ∃ res, finish ok er b c t o = some res := by
  simp only [finish]; split <;> exact ⟨_, rfl⟩

theorem loop_stops {N : Nat} (ih : IHM W G R q N) {p : Pat ι β} {e : Peg ι} (hp : AsPegIn W p e)
    {more ok : Nat → Bool} {er : Error} {b : Nat} {d : List ι} {c : Nat} {x : List ι}
    (h : LoopEv R N (.seq W e) more c x) : ∀ (o : Nat) (_ : Pos d o x) (tot : Span),
    ∃ res, repL (matL G (some q) d) p more (finish ok er b) c tot o = some res := by
  induction h with
  | done hm =>
    intro o _ tot
    rw [repL_eq, hm]
    simp only [Bool.false_eq_true, if_false]; exact finish_stops
  | stop hm hM hev =>
    intro o hd tot
    rw [repL_eq, if_pos hm]
    rcases ih p e hp _ hM d o _ _ hd hev with ⟨y, s, o', hr, _⟩ | ⟨_, er', o', hr⟩
    · cases hr
    · rw [hr]; exact finish_stops
  | step hm hM hev _ ihl =>
    intro o hd tot
    rw [repL_eq, if_pos hm]
    rcases ih p e hp _ hM d o _ _ hd hev with ⟨y, s, o', hr, hd', hrun⟩ | ⟨hr, _⟩
    · cases hr
      rw [hrun]; simp only [caseR, addK]
      split
      · exact ⟨_, rfl⟩
      · exact ihl o' hd' _
    · cases hr

theorem times_ev {N : Nat} {E w : Peg ι} {more : Nat → Bool} (j : Nat) : ∀ (c K : Nat) (x : List ι) r,
    K ≤ N → pegEv R K (.times E w j) x = some r → (∀ i, i < j → more (c + i) = true) →
    (∀ K', K' ≤ K → ∀ x r, pegEv R K' w x = some r → LoopEv R N E more (c + j) x) →
    LoopEv R N E more c x := by
  induction j with
  | zero => intro c K x r _ h _ hw; exact hw K (Nat.le_refl _) x r h
  | succ j ihj =>
    intro c K x r hK h hm hw
    have h0 : more c = true := hm 0 (by omega)
    obtain ⟨K', rfl, ⟨h1, _⟩ | ⟨y, h1, h2⟩⟩ := ev_seq h
    · exact .stop h0 (by omega) h1
    · refine .step h0 (by omega) h1 (ihj (c + 1) K' y r (by omega) h2 ?_ ?_)
      · intro i hi
        have := hm (i + 1) (by omega)
        rwa [show c + (i + 1) = c + 1 + i by omega] at this
      · intro K'' hK'' x r h
        have := hw K'' (by omega) x r h
        rwa [show c + (j + 1) = c + 1 + j by omega] at this

theorem star_ev {N : Nat} {E : Peg ι} {more : Nat → Bool} (hm : ∀ c, more c = true) (K : Nat) :
    ∀ (c : Nat) (x : List ι) r, K ≤ N → pegEv R K (.star E) x = some r → LoopEv R N E more c x := by
  induction K with
  | zero => intro _ _ _ _ h; simp [pegEv] at h
  | succ K ih =>
    intro c x r hK h
    obtain ⟨K', hK', ⟨h1, _⟩ | ⟨y, h1, h2⟩⟩ := ev_star h
    · exact .stop (hm c) (by omega) h1
    · cases hK'
      exact .step (hm c) (by omega) h1 (ih (c + 1) y r (by omega) h2)

theorem upto_ev {N : Nat} {e : Peg ι} {more : Nat → Bool} {hi : Nat} (hm : ∀ c, more c = true ↔ c < hi)
    (j : Nat) : ∀ (c K : Nat) (x : List ι) r, K ≤ N → c + j = hi →
    pegEv R K (.uptoIn W e j) x = some r → LoopEv R N (.seq W e) more c x := by
  induction j with
  | zero =>
    intro c K x r _ hc _
    refine .done ?_
    cases h : more c with
    | false => rfl
    | true => have := (hm c).mp h; omega
  | succ j ihj =>
    intro c K x r hK hc h
    have h0 : more c = true := (hm c).mpr (by omega)
    obtain ⟨K', rfl, h'⟩ := ev_alt h
    have h : ∃ r', pegEv R K' (.seq (.seq W e) (.uptoIn W e j)) x = some r' := by
      rcases h' with ⟨_, h, _⟩ | ⟨h, _⟩ <;> exact ⟨_, h⟩
    obtain ⟨r', h⟩ := h
    obtain ⟨K'', rfl, ⟨h1, _⟩ | ⟨y, h1, h2⟩⟩ := ev_seq h
    · exact .stop h0 (by omega) h1
    · exact .step h0 (by omega) h1 (ihj (c + 1) K'' y r' (by omega) (by omega) h2)

theorem rep_ev {N : Nat} {e : Peg ι} {more ok : Nat → Bool} {m : Nat} {hi : Option Nat}
    (hl : LoopIs more ok m hi) {x : List ι} {r} (h : pegEv R N (.repIn W e m hi) x = some r) :
    LoopEv R N (.seq W e) more 0 x := by
  cases hi with
  | none =>
    have hm : ∀ c, more c = true := fun c => (hl.more_iff c).mpr (by simp)
    obtain ⟨M, rfl, h'⟩ := ev_seq h
    have h : ∃ r', pegEv R M (.times (.seq W e) (.star (.seq W e)) m) x = some r' := by
      rcases h' with ⟨h, _⟩ | ⟨_, h, _⟩ <;> exact ⟨_, h⟩
    obtain ⟨r', h⟩ := h
    refine times_ev m 0 M x r' (by omega) h (fun i _ => hm _) ?_
    intro K' hK' x r h
    exact star_ev hm K' _ x r (by omega) h
  | some k =>
    have hm : ∀ c, more c = true ↔ c < k := fun c => by rw [hl.more_iff]; simp
    have hmk := hl.le k rfl
    refine times_ev m 0 N x r (Nat.le_refl _) h (fun i hi => (hm _).mpr (by omega)) ?_
    intro K' hK' x r h
    exact upto_ev hm (k - m) _ K' x r (by omega) (by omega) h

/-- Rounds of a separated list, each shorter than `N`. -/
inductive SepEv (R : Nat → Peg ι) (N : Nat) (E S : Peg ι) : List ι → Prop where
  | stop {x M} : M < N → pegEv R M E x = some none → SepEv R N E S x
  | last {x y M M'} : M < N → pegEv R M E x = some (some y) → M' < N → pegEv R M' S y = some none →
      SepEv R N E S x
  | more {x y z M M'} : M < N → pegEv R M E x = some (some y) → M' < N →
      pegEv R M' S y = some (some z) → SepEv R N E S z → SepEv R N E S x

theorem sepLoop_stops {N : Nat} (ih : IHM W G R q N) {p s : Pat ι β} {e es : Peg ι} (hp : AsPegIn W p e)
    (hs : AsPegIn W s es) {ok : Nat → Bool} {er : Error} {b : Nat} {d : List ι} {x : List ι}
    (h : SepEv R N (.seq W e) (.seq W es) x) : ∀ (c o : Nat) (_ : Pos d o x) (tot : Span),
    ∃ res, sepL (matL G (some q) d) p s true (fun _ => true) (finish ok er b) c tot o = some res := by
  induction h with
  | stop hM hev =>
    intro c o hd tot
    rw [sepL_eq]; simp only [if_true]
    rcases ih p e hp _ hM d o _ _ hd hev with ⟨y, s, o', hr, _⟩ | ⟨_, er', o', hr⟩
    · cases hr
    · rw [hr]; exact finish_stops
  | last hM hev hM' hev' =>
    intro c o hd tot
    rw [sepL_eq]; simp only [if_true]
    rcases ih p e hp _ hM d o _ _ hd hev with ⟨y, s1, o', hr, hd', hrun⟩ | ⟨hr, _⟩
    · cases hr
      rcases ih s es hs _ hM' d o' _ _ hd' hev' with ⟨_, _, _, hr, _⟩ | ⟨_, er', o'', hrun'⟩
      · cases hr
      · rw [hrun]; simp only [caseR]; rw [hrun']; simp only [addK]
        split
        · exact ⟨_, rfl⟩
        · exact finish_stops
    · cases hr
  | more hM hev hM' hev' _ ihl =>
    intro c o hd tot
    rw [sepL_eq]; simp only [if_true]
    rcases ih p e hp _ hM d o _ _ hd hev with ⟨y, s1, o', hr, hd', hrun⟩ | ⟨hr, _⟩
    · cases hr
      rcases ih s es hs _ hM' d o' _ _ hd' hev' with ⟨_, s2, o'', hr, hd'', hrun'⟩ | ⟨hr, _⟩
      · cases hr
        rw [hrun]; simp only [caseR]; rw [hrun']; simp only [addK]
        split
        · exact ⟨_, rfl⟩
        · split
          · exact ⟨_, rfl⟩
          · exact ihl _ o'' hd'' _
      · cases hr
    · cases hr

theorem starSep_ev {N : Nat} {E S : Peg ι} (K : Nat) : ∀ (x : List ι) r, K ≤ N →
    pegEv R K (.star (.seq E S)) x = some r → SepEv R N E S x := by
  induction K with
  | zero => intro _ _ _ h; simp [pegEv] at h
  | succ K ih =>
    intro x r hK h
    obtain ⟨K', hK', ⟨h1, _⟩ | ⟨w, h1, h2⟩⟩ := ev_star h
    · cases hK'
      obtain ⟨J, rfl, ⟨h3, _⟩ | ⟨y, h3, h4⟩⟩ := ev_seq h1
      · exact .stop (by omega) h3
      · exact .last (M := J) (M' := J) (by omega) h3 (by omega) h4
    · cases hK'
      obtain ⟨J, rfl, ⟨_, h4⟩ | ⟨y, h3, h4⟩⟩ := ev_seq h1
      · cases h4
      · exact .more (M := J) (M' := J) (by omega) h3 (by omega) h4 (ih w r (by omega) h2)

theorem list_ev {N : Nat} {E S : Peg ι} (k : Nat) : ∀ (K : Nat) (x : List ι) r, K ≤ N →
    pegEv R K (.list E S k) x = some r → SepEv R N E S x := by
  have zero : ∀ (K : Nat) (x : List ι) r, K ≤ N →
      pegEv R K (.seq (.star (.seq E S)) (.opt E)) x = some r → SepEv R N E S x := by
    intro K x r hK h
    obtain ⟨M, rfl, h'⟩ := ev_seq h
    rcases h' with ⟨h, _⟩ | ⟨_, h, _⟩ <;> exact starSep_ev M x _ (by omega) h
  match k with
  | 0 => exact zero
  | 1 =>
    intro K x r hK h
    obtain ⟨M, rfl, ⟨h1, _⟩ | ⟨y, h1, h2⟩⟩ := ev_seq h
    · exact .stop (by omega) h1
    · obtain ⟨M', rfl, h2'⟩ := ev_alt h2
      have h2 : ∃ r', pegEv R M' (.seq S (.seq (.star (.seq E S)) (.opt E))) y = some r' := by
        rcases h2' with ⟨_, h, _⟩ | ⟨h, _⟩ <;> exact ⟨_, h⟩
      obtain ⟨r', h2⟩ := h2
      obtain ⟨M'', rfl, ⟨h3, _⟩ | ⟨z, h3, h4⟩⟩ := ev_seq h2
      · exact .last (M := M'' + 1 + 1) (M' := M'') (by omega) h1 (by omega) h3
      · exact .more (M := M'' + 1 + 1) (M' := M'') (by omega) h1 (by omega) h3 (zero M'' z r' (by omega) h4)
  | k + 2 =>
    intro K x r hK h
    obtain ⟨M, rfl, ⟨h1, _⟩ | ⟨y, h1, h2⟩⟩ := ev_seq h
    · exact .stop (by omega) h1
    · obtain ⟨M'', rfl, ⟨h3, _⟩ | ⟨z, h3, h4⟩⟩ := ev_seq h2
      · exact .last (M := M'' + 1) (M' := M'') (by omega) h1 (by omega) h3
      · exact .more (M := M'' + 1) (M' := M'') (by omega) h1 (by omega) h3
          (list_ev (k + 1) M'' z r (by omega) h4)

theorem sep_ev {N : Nat} {E S F : Peg ι} {k : Nat} {x : List ι} {r}
    (h : pegEv R N (.seq (.list E S k) F) x = some r) : SepEv R N E S x := by
  obtain ⟨M, rfl, h'⟩ := ev_seq h
  rcases h' with ⟨h, _⟩ | ⟨_, h, _⟩ <;> exact list_ev k M x _ (by omega) h

theorem seq2_stops {N : Nat} (ih : IHM W G R q N) {a b : Pat ι β} {ea eb : Peg ι} (ha : AsPegIn W a ea)
    (hb : AsPegIn W b eb) {d : List ι} {o : Nat} {x : List ι} {r} (hd : Pos d o x)
    (h : pegEv R N (.seq (.seq W ea) (.seq W eb)) x = some r) :
    ∃ res, seq2 (matL G (some q) d) a b o = some res := by
  obtain ⟨M, rfl, ⟨h1, _⟩ | ⟨y, h1, h2⟩⟩ := ev_seq h
  · rcases ih a ea ha M (by omega) d o _ _ hd h1 with ⟨_, _, _, hr, _⟩ | ⟨_, er', o', hr⟩
    · cases hr
    · rw [seq2, hr]; exact ⟨_, rfl⟩
  · rcases ih a ea ha M (by omega) d o _ _ hd h1 with ⟨_, s1, o', hr, hd', hrun⟩ | ⟨hr, _⟩
    · cases hr
      rw [seq2, hrun]; simp only [caseR]
      rcases ih b eb hb M (by omega) d o' _ _ hd' h2 with ⟨_, s2, o'', _, _, hrun'⟩ | ⟨_, _, _, hrun'⟩
      · rw [hrun']; simp only [addK]; split <;> exact ⟨_, rfl⟩
      · rw [hrun']; exact ⟨_, rfl⟩
    · cases hr

theorem three_stops {N : Nat} (ih : IHM W G R q N) {b c : Pat ι β} {eb ec : Peg ι}
    (hb : AsPegIn W b eb) (hc : AsPegIn W c ec) {d : List ι} {o o1 : Nat} {x : List ι} {r} {s1 : Span}
    (hd : Pos d o1 x) (h : pegEv R N (.seq (.seq W eb) (.seq W ec)) x = some r)
    {kErr : Error → Nat → Option (Res Span)} (hk : ∀ e o, ∃ res, kErr e o = some res) :
    ∃ res, caseR (matL G (some q) d b o1)
        (fun s2 o2 => addK s1 s2 fun s12 => caseR (matL G (some q) d c o2)
          (fun s3 o3 => addK s12 s3 fun s => some (.ok s o3))
          (fun e _ => some (.err e o)))
        kErr = some res := by
  obtain ⟨M, rfl, ⟨h1, _⟩ | ⟨y, h1, h2⟩⟩ := ev_seq h
  · rcases ih b eb hb M (by omega) d o1 _ _ hd h1 with ⟨_, _, _, hr, _⟩ | ⟨_, er', o', hr⟩
    · cases hr
    · rw [hr]; exact hk _ _
  · rcases ih b eb hb M (by omega) d o1 _ _ hd h1 with ⟨_, s1, o', hr, hd', hrun⟩ | ⟨hr, _⟩
    · cases hr
      rw [hrun]; simp only [caseR, addK]
      split
      · exact ⟨_, rfl⟩
      · rcases ih c ec hc M (by omega) d o' _ _ hd' h2 with ⟨_, s2, o'', _, _, hrun'⟩ | ⟨_, _, _, hrun'⟩
        · rw [hrun']; simp only; split <;> exact ⟨_, rfl⟩
        · rw [hrun']; exact ⟨_, rfl⟩
    · cases hr

theorem mat_stops {N : Nat} (ih : IHM W G R q N) {p : Pat ι β} {e : Peg ι} (hp : AsPegIn W p e)
    {M : Nat} (hM : M < N) {d : List ι} {o : Nat} {x : List ι} {r} (hd : Pos d o x)
    (h : pegEv R M (.seq W e) x = some r) : ∃ res, matL G (some q) d p o = some res := by
  rcases ih p e hp M hM d o x r hd h with ⟨_, s, o', _, _, h⟩ | ⟨_, er, o', h⟩ <;> exact ⟨_, h⟩

theorem leaf_stops (R : Nat → Peg ι) {p : Pat ι β} {e : Peg ι} (hp : Primitive p) (ha : AsPeg p e) {d : List ι} {o : Nat}
    {x : List ι} (hd : Pos d o x) : StopsIn G q d p o := by
  obtain ⟨pre, rfl, rfl⟩ := hd
  have conv : ∀ {p : Pat ι β} {e : Peg ι}, Primitive p → LeafOk G R p e →
      StopsIn G q (pre ++ x) p (blen pre) := by
    intro p e hp hl
    obtain ⟨_, _, res, hr, _⟩ := hl pre x
    exact ⟨res, by rw [primitive_policy_free hp (some q) none]; exact parses_iff.mp hr⟩
  cases ha with
  | empty => exact conv hp pegLeaf_empty
  | fail => exact conv hp pegLeaf_fail
  | anchorEnd => exact conv hp pegLeaf_anchorEnd
  | consumeAll => exact conv hp pegLeaf_consumeAll
  | lit l => exact conv hp (pegLeaf_lit l)
  | once u => exact conv hp (pegLeaf_once u)
  | many0 u => exact conv hp (pegLeaf_many0 u)
  | many1 u => exact conv hp (pegLeaf_many1 u)
  | optU u => exact conv hp (pegLeaf_optU u)
  | between u m n hu hmn => exact conv hp (pegLeaf_between u m n hu hmn)
  | times u r m n hu hc => exact conv hp (pegLeaf_times u r m n hu hc)
  | thenU u v hu hv => exact conv hp (pegLeaf_thenU u v hu hv)
  | _ => exact absurd hp id

theorem complete_ev (hq : SkipReads G R q W) (hi : SkipOnce R W) (hG : RulesAsPegIn W G R) (N : Nat) :
    ∀ (p : Pat ι β) e, AsPegIn W p e → ∀ d o x r, Pos d o x →
    pegEv R N e x = some r → StopsIn G q d p o := by
  induction N using Nat.strongRecOn with
  | _ N ih =>
    have im' : IHM W G R q (N + 1) := ihm_of hq hi hG ih
    have im := im'.mono (Nat.le_succ N)
    intro p e hp d o x r hd h
    unfold StopsIn
    cases hp with
    | leaf hp ha => exact leaf_stops R hp ha hd
    | choice_nil er => exact ⟨_, by rw [parseL_choice]; rfl⟩
    | cell i =>
      rcases hG i with ⟨q', hq', ha⟩ | ⟨hq', _⟩
      · cases N with
        | zero => simp [pegEv] at h
        | succ M =>
          obtain ⟨res, hr⟩ := ih M (by omega) q' _ ha d o x r hd h
          exact ⟨res, by rw [parseL_cell, hq']; exact hr⟩
      · exact ⟨_, by rw [parseL_cell, hq']⟩
    | map f hp' => rw [parseL_map]; exact mat_stops im' hp' (Nat.lt_succ_self N) hd h
    | pat hp' => rw [parseL_pat]; exact mat_stops im' hp' (Nat.lt_succ_self N) hd h
    | thn ha hb => rw [parseL_thn]; exact seq2_stops im ha hb hd h
    | pre ha hb => rw [parseL_pre]; exact seq2_stops im ha hb hd h
    | suf ha hb => rw [parseL_suf]; exact seq2_stops im ha hb hd h
    | @enclose a b c ea eb ec ha hb hc =>
      rw [parseL_enclose]
      obtain ⟨M, rfl, ⟨h1, _⟩ | ⟨y, h1, h2⟩⟩ := ev_seq h
      · rcases im a ea ha M (by omega) d o _ _ hd h1 with ⟨_, _, _, hr, _⟩ | ⟨_, er', o', hr⟩
        · cases hr
        · rw [hr]; exact ⟨_, rfl⟩
      · rcases im a ea ha M (by omega) d o _ _ hd h1 with ⟨_, s1, o', hr, hd', hrun⟩ | ⟨hr, _⟩
        · cases hr
          rw [hrun]; simp only [caseR]
          exact three_stops (im.mono (by omega)) hb hc hd' h2 fun _ _ => ⟨_, rfl⟩
        · cases hr
    | @sepOnce a b c ea eb ec ha hb hc =>
      rw [parseL_sepOnce]
      obtain ⟨M, rfl, ⟨h1, _⟩ | ⟨y, h1, h2⟩⟩ := ev_seq h
      · rcases im a ea ha M (by omega) d o _ _ hd h1 with ⟨_, _, _, hr, _⟩ | ⟨_, er', o', hr⟩
        · cases hr
        · rw [hr]; exact ⟨_, rfl⟩
      · rcases im a ea ha M (by omega) d o _ _ hd h1 with ⟨_, s1, o', hr, hd', hrun⟩ | ⟨hr, _⟩
        · cases hr
          rw [hrun]; simp only [caseR]
          cases hadd : (⟨o, 0⟩ : Span).addAssign s1 with
          | none => exact ⟨.panic, by simp only [addK, hadd]⟩
          | some u =>
            simp only [addK, hadd]
            exact three_stops (im.mono (by omega)) hb hc hd' h2 fun _ _ => ⟨_, rfl⟩
        · cases hr
    | @ifThen a c b ea et eb ha hc hb =>
      rw [parseL_ifThen]
      obtain ⟨M, rfl, ⟨h1, _⟩ | ⟨y, h1, h2⟩⟩ := ev_seq h
      · rcases im a ea ha M (by omega) d o _ _ hd h1 with ⟨_, _, _, hr, _⟩ | ⟨_, er', o', hr⟩
        · cases hr
        · rw [hr]; exact ⟨_, rfl⟩
      · rcases im a ea ha M (by omega) d o _ _ hd h1 with ⟨_, s1, o', hr, hd', hrun⟩ | ⟨hr, _⟩
        · cases hr
          rw [hrun]; simp only [caseR]
          obtain ⟨M', rfl, h2'⟩ := ev_alt h2
          have h2 : ∃ r', pegEv R M' (.seq (.seq W et) (.seq W eb)) y = some r' := by
            rcases h2' with ⟨_, h, _⟩ | ⟨h, _⟩ <;> exact ⟨_, h⟩
          obtain ⟨r', h2⟩ := h2
          exact three_stops (im.mono (by omega)) hc hb hd' h2 fun _ _ => ⟨_, rfl⟩
        · cases hr
    | @or a b ea eb ha hb =>
      rw [parseL_or]
      obtain ⟨M, rfl, ⟨y, h1, _⟩ | ⟨h1, h2⟩⟩ := ev_alt h
      · rcases im a ea ha M (by omega) d o _ _ hd h1 with ⟨_, s1, o', hr, hd', hrun⟩ | ⟨hr, _⟩
        · rw [hrun]; exact ⟨_, rfl⟩
        · cases hr
      · rcases im a ea ha M (by omega) d o _ _ hd h1 with ⟨_, _, _, hr, _⟩ | ⟨_, er', o', hr⟩
        · cases hr
        · obtain ⟨res, he⟩ := mat_stops im hb (by omega) hd h2
          rw [hr]; simp only [caseR]; rw [he]
          cases res <;> exact ⟨_, rfl⟩
    | @opt p' e hp' =>
      rw [parseL_opt]
      have h' : ∃ M r', M < N ∧ pegEv R M (.seq W e) x = some r' := by
        obtain ⟨M, rfl, ⟨y, h1, _⟩ | ⟨h1, _⟩⟩ := ev_alt h <;> exact ⟨M, _, by omega, h1⟩
      obtain ⟨M, r', hM, h'⟩ := h'
      obtain ⟨res, he⟩ := mat_stops im hp' hM hd h'
      rw [he]
      cases res <;> exact ⟨_, rfl⟩
    | @isnt p' e hp' =>
      rw [parseL_assert]
      obtain ⟨M, r', rfl, h1⟩ := ev_not h
      obtain ⟨res, he⟩ := mat_stops im hp' (by omega) hd h1
      rw [he]
      cases res <;> exact ⟨_, rfl⟩
    | @is p' e hp' =>
      rw [parseL_assert]
      obtain ⟨M, r', rfl, h1⟩ := ev_not h
      obtain ⟨M', r'', rfl, h2⟩ := ev_not h1
      obtain ⟨res, he⟩ := mat_stops im hp' (by omega) hd h2
      rw [he]
      cases res <;> exact ⟨_, rfl⟩
    | @choice_cons er p' e v items es hp' hitems =>
      rw [parseL_choice]
      obtain ⟨M, rfl, ⟨y, h1, _⟩ | ⟨h1, h2⟩⟩ := ev_alt h
      · rcases im _ _ hp' M (by omega) d o _ _ hd h1 with ⟨_, s1, o', hr, hd', hrun⟩ | ⟨hr, _⟩
        · simp only [choiceLoop, hrun]; exact ⟨_, rfl⟩
        · cases hr
      · rcases im _ _ hp' M (by omega) d o _ _ hd h1 with ⟨_, _, _, hr, _⟩ | ⟨_, er', o', hr⟩
        · cases hr
        · obtain ⟨res, hres⟩ := ih M (by omega) _ _ hitems d o x _ hd h2
          rw [parseL_choice] at hres
          exact ⟨res, by simp only [choiceLoop, hr, caseR]; exact hres⟩
    | rep r m hi hp' hc => rw [parseL_rep]; exact loop_stops im hp' (rep_ev (counts_loop hc) h) o hd _
    | collect m hp' => rw [parseL_collect]; exact loop_stops im hp' (rep_ev (collect_loop m) h) o hd _
    | sep min hp' hs => rw [parseL_sep]; exact sepLoop_stops im hp' hs (sep_ev h) 0 o hd _
    | sepCollect min hp' hs => rw [parseL_sepCollect]; exact sepLoop_stops im hp' hs (sep_ev h) 0 o hd _

end Skip
end Neure
