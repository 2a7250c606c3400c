import Verif.PropsFind
import Verif.PropsHangLook

/-!
# C28, C29, C30: the only ways a search hangs

`find`, `find_all` and `match_seq` try the pattern again and again.  When does such a
search never come back?  Only when a try itself hangs, or when it goes on for ever: after
a try that came back, it tries again at a place it has computed from the offset the try
left behind, and this may be the same place as before.
-/

set_option linter.unusedSectionVars false
set_option linter.unusedSimpArgs false

namespace Neure

open Demo

namespace HangFind

variable {ι β α : Type} [Item ι] {G : Rules ι β} {pol : Option (Pat ι β)} {d : List ι} {p : Pat ι β}

/-- A try at `o` came back without a result for the user, and `find` tries again at `o'`:
one byte after the offset that a failure or an empty match left behind, or at the offset
that a match left behind whose text cannot be cut out. -/
inductive Retry (G : Rules ι β) (pol : Option (Pat ι β)) (d : List ι) (p : Pat ι β)
    (x : Extract ι α) : Nat → Nat → Prop where
  | failed {o k e} : o < blen d → Runs G pol d p o (.err e k) → Retry G pol d p x o (k + 1)
  | empty {o k s} : o < blen d → Runs G pol d p o (.ok s k) → s.len = 0 → Retry G pol d p x o (k + 1)
  | refused {o k s e} : o < blen d → Runs G pol d p o (.ok s k) → s.len ≠ 0 →
      x.invoke d s = .err e → Retry G pol d p x o k

/-- The same for `match_seq`, which gives up at a failure or an empty match. -/
inductive RetrySeq (G : Rules ι β) (pol : Option (Pat ι β)) (d : List ι) (p : Pat ι β)
    (x : Extract ι α) : Nat → Nat → Prop where
  | refused {o k s e} : o < blen d → Runs G pol d p o (.ok s k) → s.len ≠ 0 →
      x.invoke d s = .err e → RetrySeq G pol d p x o k

/-- One call of `next` at `o` yields an item and leaves the offset `o'`. -/
def Yields (next : Nat → Res (Option α) → Prop) (o o' : Nat) : Prop :=
  ∃ a, next o (.ok (some a) o')

/-- From `o`, step after step, to `k`. -/
inductive Comes (R : Nat → Nat → Prop) : Nat → Nat → Prop where
  | here {o} : Comes R o o
  | next {o o' k} : R o o' → Comes R o' k → Comes R o k

/-- From `o`, step after step, for ever. -/
def Endless (R : Nat → Nat → Prop) (o : Nat) : Prop :=
  ∃ os : Nat → Nat, os 0 = o ∧ ∀ n, R (os n) (os (n + 1))

theorem Comes.snoc {R : Nat → Nat → Prop} {o k k' : Nat} (h : Comes R o k) (h' : R k k') : Comes R o k' := by
  induction h with
  | here => exact .next h' .here
  | next h1 _ ih => exact .next h1 (ih h')

/-- A process that never returns goes on for ever or comes to a point where it is stuck. -/
theorem endless_or {R : Nat → Nat → Prop} {never stuck : Nat → Prop}
    (h : ∀ o, never o → stuck o ∨ ∃ o', R o o' ∧ never o') {o : Nat} (ho : never o) :
    Endless R o ∨ ∃ k, Comes R o k ∧ stuck k := by
  refine Classical.or_iff_not_imp_right.mpr fun hno => ?_
  let S := { k : Nat // Comes R o k ∧ never k }
  have step : ∀ c : S, ∃ c' : S, R c.1 c'.1 := by
    rintro ⟨k, hc, hk⟩
    rcases h k hk with hs | ⟨k', hr, hk'⟩
    · exact absurd ⟨k, hc, hs⟩ hno
    · exact ⟨⟨k', hc.snoc hr, hk'⟩, hr⟩
  let nx : S → S := fun c => Classical.choose (step c)
  have hnx : ∀ c, R c.1 (nx c).1 := fun c => Classical.choose_spec (step c)
  let seq : Nat → S := fun n => n.rec ⟨o, .here, ho⟩ (fun _ c => nx c)
  exact ⟨fun n => (seq n).1, rfl, fun n => hnx (seq n)⟩

/-- The place where the loop tries again after a try that came back with `ret`, `k`. -/
def Redo (func : Processor) (h : Span → Out α) (ret : Except Error Span) (k o' : Nat) : Prop :=
  func ret k = (none, o') ∨ ∃ s e, func ret k = (some s, o') ∧ h s = .err e

/-- The steps of the search loop, for either processor. -/
def Again (mtf : Nat → Nat → Option (Res Span)) (len : Nat) (func : Processor) (h : Span → Out α)
    (o o' : Nat) : Prop :=
  o < len ∧ ((∃ s k, (∃ n, mtf n o = some (.ok s k)) ∧ Redo func h (.ok s) k o') ∨
    ∃ e k, (∃ n, mtf n o = some (.err e k)) ∧ Redo func h (.error e) k o')

theorem body_none {func : Processor} {h : Span → Out α} {loop : Nat → Option (Res (Option α))}
    {ret : Except Error Span} {k o' : Nat} (hr : Redo func h ret k o') (hl : loop o' = none) :
    findBody func h loop ret k = none := by
  unfold findBody
  rcases hr with hr | ⟨s, e, hr, he⟩
  · rw [hr]; exact hl
  · rw [hr]; dsimp only; rw [he]; exact hl

theorem body_gives {func : Processor} {h : Span → Out α} {K : Nat → Res (Option α) → Prop}
    {ret : Except Error Span} {k : Nat} (hn : ∀ r, ¬ BodyGives func h K ret k r) :
    ∃ o', Redo func h ret k o' ∧ ∀ r, ¬ K o' r := by
  unfold BodyGives at hn
  rcases hf : func ret k with ⟨_ | s, o2⟩
  · rw [hf] at hn
    exact ⟨o2, .inl hf, hn⟩
  · rw [hf] at hn
    dsimp only at hn
    cases hh : h s with
    | ok a => rw [hh] at hn; exact absurd rfl (hn _)
    | err e => rw [hh] at hn; exact ⟨o2, .inr ⟨s, e, hf, hh⟩, hn⟩
    | panic => rw [hh] at hn; exact absurd rfl (hn _)

theorem same_value {f : Nat → Option (Res Span)} (hm : Mono f) {n m : Nat} {v w : Res Span}
    (h1 : f n = some v) (h2 : f m = some w) : v = w := by
  rcases Nat.le_total n m with h | h
  · exact Option.some.inj ((hm n m h _ h1).symm.trans h2)
  · exact (Option.some.inj ((hm m n h _ h2).symm.trans h1)).symm

theorem loop_none {mtf : Nat → Nat → Option (Res Span)} {len : Nat} {func : Processor} {h : Span → Out α}
    (hm : ∀ o, Mono fun n => mtf n o) {o o' : Nat} (hs : Again mtf len func h o o') {N fuel : Nat}
    (hl : findLoop (mtf N) len func h fuel o' = none) : findLoop (mtf N) len func h (fuel + 1) o = none := by
  obtain ⟨hlt, hs⟩ := hs
  simp only [findLoop, if_pos hlt]
  cases hv : mtf N o with
  | none => rfl
  | some v =>
    rcases hs with ⟨s, k, ⟨n, hn⟩, hr⟩ | ⟨e, k, ⟨n, hn⟩, hr⟩
    · cases same_value (hm o) hv hn
      exact body_none hr hl
    · cases same_value (hm o) hv hn
      exact body_none hr hl

/-- The search loop never returns exactly if it goes on for ever or comes to a try that
never returns. -/
theorem loop_hangs_iff {mtf : Nat → Nat → Option (Res Span)} {len : Nat} {func : Processor}
    {h : Span → Out α} (hm : ∀ o, Mono fun n => mtf n o) {o : Nat} :
    (∀ r, ¬ ∃ n, findLoop (mtf n) len func h n o = some r) ↔
      Endless (Again mtf len func h) o ∨
      ∃ k, Comes (Again mtf len func h) o k ∧ k < len ∧ ∀ n, mtf n k = none := by
  constructor
  · intro hn
    refine endless_or (never := fun o => ∀ r, ¬ ∃ n, findLoop (mtf n) len func h n o = some r)
      (stuck := fun k => k < len ∧ ∀ n, mtf n k = none) ?_ hn
    intro o hn
    have key := findLoop_iff (len := len) (func := func) (h := h) hm o
    by_cases hlt : o < len
    · by_cases hex : ∃ v n, mtf n o = some v
      · obtain ⟨v, hv⟩ := hex
        right
        cases v with
        | ok s k =>
          obtain ⟨o', h1, h2⟩ := body_gives (func := func) (h := h) (ret := .ok s) (k := k)
            (K := fun o r => ∃ n, findLoop (mtf n) len func h n o = some r)
            (fun r hb => hn r ((key r).mpr (by rw [if_pos hlt]; exact ⟨_, hv, hb⟩)))
          exact ⟨o', ⟨hlt, .inl ⟨s, k, hv, h1⟩⟩, h2⟩
        | err e k =>
          obtain ⟨o', h1, h2⟩ := body_gives (func := func) (h := h) (ret := .error e) (k := k)
            (K := fun o r => ∃ n, findLoop (mtf n) len func h n o = some r)
            (fun r hb => hn r ((key r).mpr (by rw [if_pos hlt]; exact ⟨_, hv, hb⟩)))
          exact ⟨o', ⟨hlt, .inr ⟨e, k, hv, h1⟩⟩, h2⟩
        | panic => exact absurd ((key .panic).mpr (by rw [if_pos hlt]; exact ⟨_, hv, rfl⟩)) (hn _)
      · left
        refine ⟨hlt, fun n => ?_⟩
        cases hv : mtf n o with
        | none => rfl
        | some v => exact absurd ⟨v, n, hv⟩ hex
    · exact absurd ((key (.ok none o)).mpr (by rw [if_neg hlt])) (hn _)
  · rintro (⟨os, rfl, hs⟩ | ⟨k, hc, hlt, hk⟩) r ⟨n, hn⟩
    · have : ∀ N fuel i, findLoop (mtf N) len func h fuel (os i) = none := by
        intro N fuel
        induction fuel with
        | zero => intro i; rfl
        | succ fuel ih => exact fun i => loop_none hm (hs i) (ih (i + 1))
      rw [this] at hn
      cases hn
    · have : ∀ N fuel, findLoop (mtf N) len func h fuel o = none := by
        clear hn
        intro N fuel
        induction hc generalizing fuel with
        | here =>
          cases fuel with
          | zero => rfl
          | succ fuel => simp only [findLoop, if_pos hlt, hk, caseR]
        | next h1 _ ih =>
          cases fuel with
          | zero => rfl
          | succ fuel => exact loop_none hm h1 (ih hlt hk fuel)
      rw [this] at hn
      cases hn

theorem again_find {x : Extract ι α} {o o' : Nat} :
    Again (fun n => tryMat G n pol d p) (blen d) findProc (x.invoke d) o o' ↔ Retry G pol d p x o o' := by
  constructor
  · rintro ⟨hlt, ⟨s, k, hv, hr⟩ | ⟨e, k, hv, hr⟩⟩
    · by_cases hs : s.len = 0
      · simp only [Redo, findProc, hs, ne_eq, not_true_eq_false, if_false, Prod.mk.injEq, true_and,
          reduceCtorEq, false_and, exists_false, or_false] at hr
        subst hr
        exact .empty hlt hv hs
      · simp only [Redo, findProc, hs, ne_eq, not_false_eq_true, if_true, Prod.mk.injEq,
          reduceCtorEq, false_and, false_or, Option.some.injEq] at hr
        obtain ⟨t, e, ⟨rfl, rfl⟩, he⟩ := hr
        exact .refused hlt hv hs he
    · simp only [Redo, findProc, Prod.mk.injEq, true_and, reduceCtorEq, false_and, exists_false,
        or_false] at hr
      subst hr
      exact .failed hlt hv
  · intro h
    cases h with
    | failed hlt hv => exact ⟨hlt, .inr ⟨_, _, hv, .inl rfl⟩⟩
    | empty hlt hv hs => exact ⟨hlt, .inl ⟨_, _, hv, .inl (by simp [findProc, hs])⟩⟩
    | refused hlt hv hs he => exact ⟨hlt, .inl ⟨_, _, hv, .inr ⟨_, _, by simp [findProc, hs], he⟩⟩⟩

theorem again_seq {x : Extract ι α} {o o' : Nat} :
    Again (fun n => tryMat G n pol d p) (blen d) (seqProc (blen d)) (x.invoke d) o o' ↔
      RetrySeq G pol d p x o o' ∨ (o < blen d ∧ o' = blen d ∧ NoHit G pol d p o) := by
  constructor
  · rintro ⟨hlt, ⟨s, k, hv, hr⟩ | ⟨e, k, hv, hr⟩⟩
    · by_cases hs : s.len = 0
      · simp only [Redo, seqProc, hs, ne_eq, not_true_eq_false, if_false, Prod.mk.injEq, true_and,
          reduceCtorEq, false_and, exists_false, or_false] at hr
        exact .inr ⟨hlt, hr.symm, .inr ⟨s, k, hv, hs⟩⟩
      · simp only [Redo, seqProc, hs, ne_eq, not_false_eq_true, if_true, Prod.mk.injEq,
          reduceCtorEq, false_and, false_or, Option.some.injEq] at hr
        obtain ⟨t, e, ⟨rfl, rfl⟩, he⟩ := hr
        exact .inl (.refused hlt hv hs he)
    · simp only [Redo, seqProc, Prod.mk.injEq, true_and, reduceCtorEq, false_and, exists_false,
        or_false] at hr
      exact .inr ⟨hlt, hr.symm, .inl ⟨e, k, hv⟩⟩
  · rintro (h | ⟨hlt, rfl, ⟨e, k, hv⟩ | ⟨s, k, hv, hs⟩⟩)
    · cases h with
      | refused hlt hv hs he => exact ⟨hlt, .inl ⟨_, _, hv, .inr ⟨_, _, by simp [seqProc, hs], he⟩⟩⟩
    · exact ⟨hlt, .inr ⟨_, _, hv, .inl rfl⟩⟩
    · exact ⟨hlt, .inl ⟨_, _, hv, .inl (by simp [seqProc, hs])⟩⟩

theorem Comes.inside {R S : Nat → Nat → Prop} {len : Nat} (hR : ∀ o o', R o o' → o < len)
    (h : ∀ o o', R o o' → o' < len → S o o') {o k : Nat} (hc : Comes R o k) (hk : k < len) :
    Comes S o k ∧ o < len := by
  induction hc with
  | here => exact ⟨.here, hk⟩
  | next h1 _ ih => exact ⟨.next (h _ _ h1 (ih hk).2) (ih hk).1, hR _ _ h1⟩

/-- Draining never ends exactly if it yields for ever or comes to a call that hangs. -/
theorem drain_hangs_iff {nx : Nat → Nat → Option (Res (Option α))} (hm : ∀ o, Mono fun n => nx n o)
    {o : Nat} :
    (∀ r, ¬ ∃ n, drain (nx n) n o = some r) ↔
      Endless (Yields fun o r => ∃ n, nx n o = some r) o ∨
      ∃ k, Comes (Yields fun o r => ∃ n, nx n o = some r) o k ∧ ∀ r, ¬ ∃ n, nx n k = some r := by
  have single : ∀ {N n o v w}, nx N o = some v → nx n o = some w → v = w := by
    intro N n o v w h1 h2
    rcases Nat.le_total N n with h | h
    · exact Option.some.inj ((hm o N n h _ h1).symm.trans h2)
    · exact (Option.some.inj ((hm o n N h _ h2).symm.trans h1)).symm
  have le : ∀ N M fuel fuel' o r, N ≤ M → fuel ≤ fuel' → drain (nx N) fuel o = some r →
      drain (nx M) fuel' o = some r := by
    intro N M fuel
    induction fuel with
    | zero => intro fuel' o r _ _ h; cases h
    | succ fuel ih =>
      intro fuel' o r hNM hf h
      obtain ⟨f2, rfl⟩ : ∃ f2, fuel' = f2 + 1 := ⟨fuel' - 1, by omega⟩
      simp only [drain] at h ⊢
      cases hv : nx N o with
      | none => rw [hv] at h; cases h
      | some v =>
        rw [hv] at h
        have hM : nx M o = some v := hm o N M hNM _ hv
        rw [hM]
        cases v with
        | ok a o' =>
          cases a with
          | none => exact h
          | some a =>
            simp only [caseR] at h ⊢
            cases hd : drain (nx N) fuel o' with
            | none => rw [hd] at h; cases h
            | some w => rw [hd] at h; rw [ih f2 o' w hNM (by omega) hd]; exact h
        | err e o' => exact h
        | panic => exact h
  have down : ∀ {N fuel o o'}, Yields (fun o r => ∃ n, nx n o = some r) o o' →
      drain (nx N) fuel o' = none → drain (nx N) (fuel + 1) o = none := by
    rintro N fuel o o' ⟨a, n, hn⟩ hd
    simp only [drain]
    cases hv : nx N o with
    | none => rfl
    | some v =>
      cases single hv hn
      simp only [caseR, hd]
  constructor
  · intro hn
    refine endless_or (never := fun o => ∀ r, ¬ ∃ n, drain (nx n) n o = some r)
      (stuck := fun k => ∀ r, ¬ ∃ n, nx n k = some r) ?_ hn
    intro o hn
    refine Classical.or_iff_not_imp_left.mpr fun hex => ?_
    obtain ⟨v, n, hv⟩ : ∃ v n, nx n o = some v :=
      Classical.byContradiction fun hc => hex fun r hr => hc ⟨r, hr⟩
    have hv' : nx (n + 1) o = some v := hm o n (n + 1) (by omega) _ hv
    cases v with
    | ok a o' =>
      cases a with
      | none => exact absurd ⟨n + 1, by simp only [drain, hv', caseR]⟩ (hn (.ok [] o'))
      | some a =>
        refine ⟨o', ⟨a, n, hv⟩, fun r ⟨m, hr⟩ => ?_⟩
        have h1 : nx (n + m + 1) o = some (.ok (some a) o') := hm o n _ (by omega) _ hv
        have h2 := le m (n + m + 1) m (n + m) o' r (by omega) (by omega) hr
        cases r with
        | ok l e => exact hn (.ok (a :: l) e) ⟨n + m + 1, by simp only [drain, h1, h2, caseR]⟩
        | err e k => exact hn (.err e k) ⟨n + m + 1, by simp only [drain, h1, h2, caseR]⟩
        | panic => exact hn .panic ⟨n + m + 1, by simp only [drain, h1, h2, caseR]⟩
    | err e o' => exact absurd ⟨n + 1, by simp only [drain, hv', caseR]⟩ (hn (.err e o'))
    | panic => exact absurd ⟨n + 1, by simp only [drain, hv', caseR]⟩ (hn .panic)
  · rintro (⟨os, rfl, hs⟩ | ⟨k, hc, hk⟩) r ⟨n, hn⟩
    · have : ∀ N fuel i, drain (nx N) fuel (os i) = none := by
        intro N fuel
        induction fuel with
        | zero => intro i; rfl
        | succ fuel ih => exact fun i => down (hs i) (ih (i + 1))
      rw [this] at hn
      cases hn
    · have : ∀ N fuel, drain (nx N) fuel o = none := by
        clear hn
        intro N fuel
        induction hc generalizing fuel with
        | here =>
          cases fuel with
          | zero => rfl
          | succ fuel =>
            simp only [drain]
            cases hv : nx N _ with
            | none => rfl
            | some v => exact absurd ⟨N, hv⟩ (hk v)
        | next h1 _ ih =>
          cases fuel with
          | zero => rfl
          | succ fuel => exact down h1 (ih hk fuel)
      rw [this] at hn
      cases hn

theorem Endless.congr {R S : Nat → Nat → Prop} (h : ∀ o o', R o o' ↔ S o o') {o : Nat} :
    Endless R o ↔ Endless S o :=
  ⟨fun ⟨os, h0, hs⟩ => ⟨os, h0, fun n => (h _ _).mp (hs n)⟩,
    fun ⟨os, h0, hs⟩ => ⟨os, h0, fun n => (h _ _).mpr (hs n)⟩⟩

theorem Comes.imp {R S : Nat → Nat → Prop} (h : ∀ o o', R o o' → S o o') {o k : Nat}
    (hc : Comes R o k) : Comes S o k := by
  induction hc with
  | here => exact .here
  | next h1 _ ih => exact .next (h _ _ h1) ih

theorem never_runs {k : Nat} : (∀ n, tryMat G n pol d p k = none) ↔ ∀ r, ¬ Runs G pol d p k r := by
  constructor
  · rintro h r ⟨n, hn⟩
    rw [h] at hn
    cases hn
  · intro h n
    cases hv : tryMat G n pol d p k with
    | none => rfl
    | some v => exact absurd ⟨n, hv⟩ (h v)

end HangFind

open HangFind

variable {ι β α : Type} [Item ι] {G : Rules ι β} {pol : Option (Pat ι β)} {d : List ι} {p : Pat ι β}

/-- **C28, when it hangs.** `find(p)` never returns exactly if it tries again for ever, or
comes to a place where the match itself never returns.  For every pattern, grammar, policy,
input and extraction. -/
theorem C28_find_hangs_iff {x : Extract ι α} {o : Nat} :
    (∀ r, ¬ Finds G pol d p x o r) ↔
      Endless (Retry G pol d p x) o ∨
      ∃ k, Comes (Retry G pol d p x) o k ∧ k < blen d ∧ ∀ r, ¬ Runs G pol d p k r := by
  refine (loop_hangs_iff (fun o => tryMat_mono G pol d p o)).trans ?_
  rw [Endless.congr (fun _ _ => again_find)]
  constructor
  · rintro (h | ⟨k, h1, h2, h3⟩)
    · exact .inl h
    · exact .inr ⟨k, h1.imp (fun _ _ => again_find.mp), h2, never_runs.mp h3⟩
  · rintro (h | ⟨k, h1, h2, h3⟩)
    · exact .inl h
    · exact .inr ⟨k, h1.imp (fun _ _ => again_find.mpr), h2, never_runs.mpr h3⟩

/-- **C28, when it hangs, for ordinary patterns.** If the pattern keeps offsets and spans in
step (`Tidy`) and what it matches can be cut out, `find(p)` never returns exactly if there
is a place where the match never returns and at all places before it there is nothing to
find. -/
theorem C28_find_hangs_iff_first {x : Extract ι α} (hp : All G Tidy p) (hx : Extractable G d p x) {o : Nat} :
    (∀ r, ¬ Finds G none d p x o r) ↔
      ∃ k, o ≤ k ∧ k < blen d ∧ (∀ j, o ≤ j → j < k → NoHit G none d p j) ∧
        ∀ r, ¬ Runs G none d p k r := by
  have step : ∀ o o', Retry G none d p x o o' ↔ o < blen d ∧ o' = o + 1 ∧ NoHit G none d p o := by
    intro o o'
    constructor
    · intro h
      cases h with
      | failed hlt hv =>
        have := hv
        obtain ⟨n, hn⟩ := this
        have he := exact_inv G n d p o hp _ hn
        exact ⟨hlt, by simpa [ExactAt] using he, .inl ⟨_, _, hv⟩⟩
      | empty hlt hv hs =>
        obtain ⟨e1, e2⟩ := C02_span_and_offset_agree G d p hp o _ _ hv
        exact ⟨hlt, by omega, .inr ⟨_, _, hv, hs⟩⟩
      | refused hlt hv hs he =>
        obtain ⟨a, ha⟩ := hx o _ _ (by omega) ⟨hv, hs⟩
        rw [ha] at he
        cases he
    · rintro ⟨hlt, rfl, ⟨e, k, hv⟩ | ⟨s, k, hv, hs⟩⟩
      · have := hv
        obtain ⟨n, hn⟩ := this
        have he : k = o := exact_inv G n d p o hp _ hn
        subst he
        exact .failed hlt hv
      · obtain ⟨e1, e2⟩ := C02_span_and_offset_agree G d p hp o _ _ hv
        have : k = o := by omega
        subst this
        exact .empty hlt hv hs
  rw [C28_find_hangs_iff]
  constructor
  · rintro (⟨os, rfl, hs⟩ | ⟨k, hc, hlt, hk⟩)
    · have grow : ∀ n, n ≤ os n := by
        intro n
        induction n with
        | zero => omega
        | succ n ih => have := ((step _ _).mp (hs n)).2.1; omega
      have := ((step _ _).mp (hs (blen d))).1
      have := grow (blen d)
      omega
    · refine ⟨k, ?_, hlt, ?_, hk⟩
      · clear hk hlt
        induction hc with
        | here => exact Nat.le_refl _
        | next h1 _ ih => have := ((step _ _).mp h1).2.1; omega
      · clear hk hlt
        induction hc with
        | here => intro j h1 h2; omega
        | @next o o' k h1 _ ih =>
          obtain ⟨-, rfl, hh⟩ := (step _ _).mp h1
          intro j hj hj'
          by_cases h : j = o
          · subst h; exact hh
          · exact ih j (by omega) hj'
  · rintro ⟨k, hle, hlt, hh, hk⟩
    refine .inr ⟨k, ?_, hlt, hk⟩
    obtain ⟨m, rfl⟩ : ∃ m, k = o + m := ⟨k - o, by omega⟩
    clear hk hle
    induction m generalizing o with
    | zero => exact .here
    | succ m ih =>
      refine .next ((step _ _).mpr ⟨by omega, rfl, hh o (Nat.le_refl _) (by omega)⟩) ?_
      have := ih (o := o + 1) (by omega) (fun j h1 h2 => hh j (by omega) (by omega))
      rwa [show o + (m + 1) = o + 1 + m by omega]

/-- **C29, when it hangs.** Draining `find_all(p)` never ends exactly if it yields matches
for ever, or comes to a call of `next()` that never returns (see `C28_find_hangs_iff`). -/
theorem C29_find_all_hangs_iff {x : Extract ι α} {o : Nat} :
    (∀ r, ¬ FindsAll G pol d p x o r) ↔
      Endless (Yields (Finds G pol d p x)) o ∨
      ∃ k, Comes (Yields (Finds G pol d p x)) o k ∧ ∀ r, ¬ Finds G pol d p x k r :=
  drain_hangs_iff (nx := find G pol d p x)
    (fun o => findLoop_mono (fun o => tryMat_mono G pol d p o) o)

/-- **C30, when a call hangs.** `next()` on `match_seq(p)` never returns exactly if it goes
for ever through matches whose text cannot be cut out, or comes through such matches to a
place where the match itself never returns. -/
theorem C30_next_hangs_iff {x : Extract ι α} {o : Nat} :
    (∀ r, ¬ SeqNext G pol d p x o r) ↔
      Endless (RetrySeq G pol d p x) o ∨
      ∃ k, Comes (RetrySeq G pol d p x) o k ∧ k < blen d ∧ ∀ r, ¬ Runs G pol d p k r := by
  refine (loop_hangs_iff (fun o => tryMat_mono G pol d p o)).trans ?_
  constructor
  · rintro (⟨os, h0, hs⟩ | ⟨k, h1, h2, h3⟩)
    · refine .inl ⟨os, h0, fun n => ?_⟩
      rcases again_seq.mp (hs n) with h | ⟨-, h, -⟩
      · exact h
      · have := (hs (n + 1)).1
        omega
    · refine .inr ⟨k, (h1.inside (len := blen d) (fun _ _ h => h.1) (fun o o' h hlt => ?_) h2).1, h2,
        never_runs.mp h3⟩
      rcases again_seq.mp h with h | ⟨-, h, -⟩
      · exact h
      · omega
  · rintro (⟨os, h0, hs⟩ | ⟨k, h1, h2, h3⟩)
    · exact .inl ⟨os, h0, fun n => again_seq.mpr (.inl (hs n))⟩
    · exact .inr ⟨k, h1.imp (fun _ _ h => again_seq.mpr (.inl h)), h2, never_runs.mpr h3⟩

/-- **C30, when it hangs.** Draining `match_seq(p)` never ends exactly if it yields matches
for ever, or comes to a call of `next()` that never returns (see `C30_next_hangs_iff`). -/
theorem C30_match_seq_hangs_iff {x : Extract ι α} {o : Nat} :
    (∀ r, ¬ MatchSeqs G pol d p x o r) ↔
      Endless (Yields (SeqNext G pol d p x)) o ∨
      ∃ k, Comes (Yields (SeqNext G pol d p x)) o k ∧ ∀ r, ¬ SeqNext G pol d p x k r :=
  drain_hangs_iff (nx := seqNext G pol d p x)
    (fun o => findLoop_mono (fun o => tryMat_mono G pol d p o) o)

/-! ### The hypotheses are met, and both ways of hanging happen -/

section

private theorem stays {G : Rules Char Unit} {d : List Char} (k o : Nat) :
    Applied G none d .empty k ⟨o, 0⟩ o ⟨o, 0⟩ o := by
  induction k with
  | zero => exact .zero _ _
  | succ k ih => exact .succ ⟨1, rfl⟩ (hull_iff.mpr (by simp [Span.addAssign])) ih

/-- `b`, then an endless loop: it hangs where there is a `b` and fails elsewhere. -/
private def atB : Pat Char Unit := .thn (.lit ['b']) (.collect .empty 0)

private theorem atB_hangs : ∀ r, ¬ Runs (G0 (β := Unit)) none "ab".toList atB 1 r := by
  rintro r ⟨n, hn⟩
  exact (C35_every_hang_iff (G := G0 (β := Unit)) (pol := none) (d := "ab".toList) (p := atB) (o := 1)).mpr (.inr ⟨_, .collect .empty 0, 2,
    .next (.same (.call (.thn2 (s := ⟨1, 1⟩) ⟨1, rfl⟩) rfl)) .here,
    .inl (.inl (.rounds (.collect _ _) fun k => ⟨trivial, _, _, stays k 2⟩))⟩) r ⟨n, hn⟩

/-- A search comes to the place where the match hangs. -/
example : ∀ r, ¬ Finds (G0 (β := Unit)) none "ab".toList atB .span 0 r :=
  C28_find_hangs_iff.mpr (.inr ⟨1, .next (.failed (k := 0) (e := .literal) (by decide) ⟨2, rfl⟩) .here,
    by decide, atB_hangs⟩)

/-- The same by the theorem for ordinary patterns. -/
example : ∀ r, ¬ Finds (G0 (β := Unit)) none "ab".toList atB .span 0 r := by
  refine (C28_find_hangs_iff_first (All.intro (by trivial) ?_) extractable_span).mpr
    ⟨1, by decide, by decide, fun j h1 h2 => ?_, atB_hangs⟩
  · rintro q (rfl | rfl)
    · exact All.intro (by trivial) (by simp [Child])
    · exact All.intro (by trivial) (by rintro q rfl; exact All.intro (by trivial) (by simp [Child]))
  · obtain rfl : j = 0 := by omega
    exact .inl ⟨.literal, 0, 2, rfl⟩

/-- And draining, whose first call hangs. -/
example : ∀ r, ¬ FindsAll (G0 (β := Unit)) none "ab".toList atB .span 0 r :=
  C29_find_all_hangs_iff.mpr (.inr ⟨0, .here, C28_find_hangs_iff.mpr (.inr ⟨1,
    .next (.failed (k := 0) (e := .literal) (by decide) ⟨2, rfl⟩) .here, by decide, atB_hangs⟩)⟩)

/-- `match_seq` on the same text comes back: it gives up at the first failure. -/
example : ¬ ∀ r, ¬ SeqNext (G0 (β := Unit)) none "ab".toList atB .span 0 r :=
  fun h => h _ ⟨2, rfl⟩

example : ∀ r, ¬ SeqNext (G0 (β := Unit)) none "ab".toList atB .span 1 r :=
  C30_next_hangs_iff.mpr (.inr ⟨1, .here, by decide, atB_hangs⟩)

/-- A user closure that steps back one byte when it fails keeps the search where it is. -/
private def stepsBack : Pat Char Unit := .native fun _ o => .err .literal (o - 1)

example : ∀ r, ¬ Finds (G0 (β := Unit)) none "ab".toList stepsBack .span 1 r :=
  C28_find_hangs_iff.mpr (.inl ⟨fun _ => 1, rfl, fun _ =>
    .failed (k := 0) (e := .literal) (show 1 < blen "ab".toList by decide) ⟨1, rfl⟩⟩)

/-- A user closure that returns the second byte of a character, and does not move. -/
private def halfChar : Pat Char Unit := .native fun _ o => .ok ⟨1, 1⟩ o

example : ∀ r, ¬ SeqNext (G0 (β := Unit)) none "é".toList halfChar .slice 0 r :=
  C30_next_hangs_iff.mpr (.inl ⟨fun _ => 0, rfl, fun _ =>
    .refused (k := 0) (s := ⟨1, 1⟩) (show 0 < blen "é".toList by decide) ⟨1, rfl⟩ (by decide) (by rfl)⟩)

/-- A user closure that matches and does not move makes `find_all` and `match_seq` yield for ever. -/
private def noMove : Pat Char Unit := .native fun _ o => .ok ⟨o, 1⟩ o

example : ∀ r, ¬ FindsAll (G0 (β := Unit)) none "ab".toList noMove .span 0 r :=
  C29_find_all_hangs_iff.mpr (.inl ⟨fun _ => 0, rfl, fun _ => ⟨⟨0, 1⟩, 1, rfl⟩⟩)

example : ∀ r, ¬ MatchSeqs (G0 (β := Unit)) none "ab".toList noMove .span 0 r :=
  C30_match_seq_hangs_iff.mpr (.inl ⟨fun _ => 0, rfl, fun _ => ⟨⟨0, 1⟩, 1, rfl⟩⟩)

end

end Neure
