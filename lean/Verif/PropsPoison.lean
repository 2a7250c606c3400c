import Verif.PoisonSys
import Verif.PropsLocks
/-!
# C82: what a panic does to the handles
-/

namespace Neure

set_option linter.unusedSectionVars false
set_option linter.unusedSimpArgs false

open Demo

variable {ι β σ : Type} [Item ι] {G : Rules ι β} {H : Handler ι β σ} {pol : Option (Pat ι β)}
  {d : List ι} {rank : Nat → Nat}

/-! ## A poisoned handle is an error like any other -/

theorem answered_unwind {X : Nat → Prop} {u : List PEv} : Answered X (u ++ [.unwind]) ↔ Answered X u := by
  simp [Answered]

/-- **C82 (matching).** If the handles in `X` are poisoned and no others, a call of
`try_mat` returns, or panics, exactly as it would without mutexes if using a handle in
`X` were an error by itself. -/
theorem C82_poison_match (X : Nat → Prop) [DecidablePred X] (p : Pat ι β) (o : Nat) (r : Res Span) :
    (∃ w, MatchPath G pol d p o r w ∧ Answered X w) ↔ Runs (afterPoison X G) pol d p o r := by
  constructor
  · rintro ⟨w, h, hX⟩
    cases h with
    | @returns n a o' _ h =>
      have := rel_poisonMat (σ := Unit) (G := G) (X := X) n pol d p ((), w) () o ⟨rfl, hX⟩
      rw [h] at this
      obtain ⟨_, h', _⟩ := this
      exact ⟨_, liftR_done.mp h'⟩
    | @panics n u h hm =>
      have := rel_poisonMat (σ := Unit) (G := G) (X := X) n pol d p ((), u) () o ⟨rfl, answered_unwind.mp hX⟩
      rw [h] at this
      refine ⟨n + 1, ?_⟩
      simp only [RRel, liftR] at this
      rcases ht : tryMat (afterPoison X G) (n + 1) pol d p o with _ | (_ | _ | _) <;> rw [ht] at this <;> simp at this ⊢
  · rintro ⟨n, h⟩
    by_cases hr : r = .panic
    · subst hr
      obtain ⟨w, hw, ha⟩ := obeys_poisonMat (σ := Unit) (G := G) (X := X) n pol d p () o .panic (by simp [liftR, h])
      refine ⟨_, .panics (n := n) (u := w) ?_ fun u e v he => ?_, answered_unwind.mpr ha⟩
      · have := hw.1 []
        simpa [MRes.left] using this
      · have := hw.2 u e v he
        simp only at this
        simp [this]
    · obtain ⟨a, o', rfl⟩ := resOf_cases r hr
      obtain ⟨w, hw, ha⟩ := obeys_poisonMat (σ := Unit) (X := X) n pol d p () o (.done a () o') (liftR_done.mpr h)
      refine ⟨w, .returns (n := n) ?_, ha⟩
      have := hw.1 []
      simpa [MRes.left] using this

/-- **C82 (constructing).** -/
theorem C82_poison_construct (X : Nat → Prop) [DecidablePred X] (p : Pat ι β) (st : σ) (o : Nat)
    (r : CRes σ (Val β)) :
    (∃ w, CtorPath G H pol d p st o r w ∧ Answered X w) ↔
      Constructs (afterPoison X G) H pol d p st o r := by
  constructor
  · rintro ⟨w, h, hX⟩
    cases h with
    | @returns n a st' o' _ h =>
      have := rel_poisonCon (G := G) (H := H) (X := X) n pol d p (st, w) st o ⟨rfl, hX⟩
      rw [h] at this
      obtain ⟨_, h', rfl, _⟩ := this
      exact ⟨_, liftC_done.mp h'⟩
    | @panics n u h hm =>
      have := rel_poisonCon (G := G) (H := H) (X := X) n pol d p (st, u) st o ⟨rfl, answered_unwind.mp hX⟩
      rw [h] at this
      refine ⟨n + 1, ?_⟩
      simp only [RRel, liftC] at this
      rcases ht : con (afterPoison X G) H (n + 1) pol d p st o with _ | (_ | _ | _) <;> rw [ht] at this <;> simp at this ⊢
  · rintro ⟨n, h⟩
    by_cases hr : r = .panic
    · subst hr
      obtain ⟨w, hw, ha⟩ := obeys_poisonCon (G := G) (H := H) (X := X) n pol d p st o .panic (by simp [liftC, h])
      refine ⟨_, .panics (n := n) (u := w) ?_ fun u e v he => ?_, answered_unwind.mpr ha⟩
      · have := hw.1 []
        simpa [MRes.left] using this
      · have := hw.2 u e v he
        simp only at this
        simp [this]
    · obtain ⟨a, st', o', rfl⟩ := cresOf_cases r hr
      obtain ⟨w, hw, ha⟩ := obeys_poisonCon (H := H) (X := X) n pol d p st o (.done a st' o') (liftC_done.mpr h)
      refine ⟨w, .returns (n := n) ?_, ha⟩
      have := hw.1 []
      simpa [MRes.left] using this

theorem afterPoison_none : afterPoison (fun _ => False) G = G := by
  funext i; simp [afterPoison]

theorem answered_of_no_bad {w : List PEv} (h : ∀ i, .bad i ∉ w) : Answered (fun _ => False) w :=
  ⟨fun i hi => h i hi, fun _ _ => id⟩

/-- **C82 (no poisoning met).** A call that is never told of a poisoned handle does what
it would do without mutexes. -/
theorem C82_clean_match {p : Pat ι β} {o : Nat} {r : Res Span} {w : List PEv}
    (h : MatchPath G pol d p o r w) (hw : ∀ i, .bad i ∉ w) : Runs G pol d p o r := by
  have := (C82_poison_match (fun _ => False) p o r).mp ⟨w, h, answered_of_no_bad hw⟩
  rwa [afterPoison_none] at this

theorem C82_clean_construct {p : Pat ι β} {st : σ} {o : Nat} {r : CRes σ (Val β)} {w : List PEv}
    (h : CtorPath G H pol d p st o r w) (hw : ∀ i, .bad i ∉ w) : Constructs G H pol d p st o r := by
  have := (C82_poison_construct (fun _ => False) p st o r).mp ⟨w, h, answered_of_no_bad hw⟩
  rwa [afterPoison_none] at this

/-- Digits; the closure of the condition panics at `9`. -/
def GX : Rules Char Nat := fun i =>
  if i = 0 then some (.many1 (.pred Char.isDigit) (.fn fun _ _ x => if x.2 = '9' then .panic else .ok true))
  else if i = 1 then some (.thn (.cell 0) (.lit [';']))
  else if i = 2 then some spaces
  else none

/-- A number, or else one character. -/
def numOrAny : Pat Char Nat := .or (.cell 0) (.once (.pred fun _ => true) .empty)

/-- How a list can be split. -/
theorem split_one {e : PEv} {P : List PEv → Prop} (h : P []) :
    ∀ u' e' v, [e] = u' ++ e' :: v → P u' := by
  intro u' e' v he
  cases u' with
  | nil => exact h
  | cons x u' => simp at he

/-- Panicking in one handle. -/
theorem path_panic : MatchPath GX none ['9'] (.cell 0) 0 .panic [.acq 0, .unwind] :=
  .panics (n := 9) (u := [.acq 0]) (by decide +kernel) (split_one (by decide +kernel))

/-- The same call when the handle is poisoned. -/
theorem path_panic_bad : MatchPath GX none ['9'] (.cell 0) 0 (.err .mutex 0) [.bad 0] :=
  .returns (n := 9) (a := .error .mutex) (by decide +kernel)

theorem path_ok : MatchPath GX none ['1', '2'] numOrAny 0 (.ok ⟨0, 2⟩ 2) [.acq 0, .rel 0] :=
  .returns (n := 9) (a := .ok ⟨0, 2⟩) (by decide +kernel)

theorem path_bad : MatchPath GX none ['1', '2'] numOrAny 0 (.ok ⟨0, 1⟩ 1) [.bad 0] :=
  .returns (n := 9) (a := .ok ⟨0, 1⟩) (by decide +kernel)

/-- The number inside the pair panics while both handles are held. -/
example : MatchPath GX none ['9', ';'] (.cell 1) 0 .panic [.acq 1, .acq 0, .unwind] :=
  .panics (n := 9) (u := [.acq 1, .acq 0]) (by decide +kernel) (by
    intro u e v he
    match u, he with
    | [], _ => decide +kernel
    | [.acq 1], _ => decide +kernel
    | x :: y :: u, he => simp at he)

/-- Only the inner handle is poisoned: the outer one is locked, and the error goes up. -/
example : MatchPath GX none ['1', ';'] (.cell 1) 0 (.err .mutex 0) [.acq 1, .bad 0, .rel 1] :=
  .returns (n := 9) (a := .error .mutex) (by decide +kernel)

example : Answered (fun i => i = 0) [.acq 1, .bad 0, .rel 1] := by simp [Answered]

/-- The length of what was matched. -/
def sizeH : Handler Char Nat Unit := fun _ _ s st => (.ok s.len, st)

/-- Constructing: the white space to be skipped is behind a poisoned handle; that error
goes up, too. -/
example : CtorPath GX sizeH (some (.cell 2)) ['1', ' ', ';'] (.cell 1) () 0
    (.err .mutex () 0) [.acq 1, .acq 0, .bad 2, .rel 0, .rel 1] :=
  .returns (n := 12) (a := .error .mutex) (by decide +kernel)

/-! ## Only panics poison, and only what the thread holds -/

section
variable {c : Nat → Course} {n : Nat} {s : PSys} {T : Nat → Nat → Prop} {K : Nat → CallSet ι β}

/-- **C82 (poisoned by a panic).** Whatever order the scheduler picks: a handle is
poisoned exactly if some thread panicked while it held that handle. -/
theorem C82_only_panics_poison (hs : PSys.Run n (PSys.start c) s) (i : Nat) :
    s.poisoned i ↔ ∃ t u v, s.did t = u ++ .unwind :: v ∧ i ∈ holding [] u :=
  ⟨(pinv_run hs).poi i, fun ⟨t, u, v, h, hm⟩ => left_poisoned hs t u v h i hm⟩

/-- **C82 (poisoned for good).** Once a handle is poisoned it stays so, and whoever asks
for it is told so. -/
theorem C82_poisoned_for_good {m : Nat} {s' : PSys} (hs : PSys.Run m s s') (i : Nat) (hi : s.poisoned i) :
    s'.poisoned i ∧ ∀ t, ∃ w, s'.did t = s.did t ++ w ∧ .acq i ∉ w :=
  poisoned_run hs hi

/-- Operations that have happened belong to the calls of the thread. -/
theorem did_touches (hc : ∀ t w, (c t).Way w → ThreadPath G (K t) w) (hK : ∀ t, (K t).Within G (T t))
    (hs : PSys.Run n (PSys.start c) s) (t : Nat) :
    ∀ e ∈ s.did t, e = .unwind ∨ ∃ i, e.About i ∧ T t i := by
  intro e he
  obtain ⟨w, hw⟩ := (s.next t).way
  exact threadPath_touches (hK t) (hc t _ ((pinv_run hs).ways t w hw)) e (by simp [he])

/-- **C82 (poisoned by a thread that uses it).** Threads make calls whose patterns and
policies reach only the handles in `T t`.  Then a poisoned handle is one that a thread
that panicked could reach. -/
theorem C82_poisoned_is_reachable (hc : ∀ t w, (c t).Way w → ThreadPath G (K t) w)
    (hK : ∀ t, (K t).Within G (T t)) (hs : PSys.Run n (PSys.start c) s) (i : Nat) (hi : s.poisoned i) :
    ∃ t, .unwind ∈ s.did t ∧ T t i := by
  obtain ⟨t, u, v, h, hm⟩ := (C82_only_panics_poison hs i).mp hi
  refine ⟨t, by simp [h], ?_⟩
  rcases mem_holding hm with h' | h'
  · cases h'
  · rcases did_touches hc hK hs t (.acq i) (by simp [h, h']) with h' | ⟨j, hj, hT⟩
    · cases h'
    · have : i = j := hj
      subst this
      exact hT

/-- **C82 (others are not affected).** If thread `t` can reach no handle that a thread
which panicked can reach, then it is never told of a poisoned handle; so each of its
calls so far did what it would do without mutexes and without other threads. -/
theorem C82_others_unaffected (hc : ∀ t w, (c t).Way w → ThreadPath G (K t) w)
    (hK : ∀ t, (K t).Within G (T t)) (hs : PSys.Run n (PSys.start c) s) (t : Nat)
    (ht : ∀ t', .unwind ∈ s.did t' → ∀ i, T t' i → ¬ T t i) :
    (∀ i, .bad i ∉ s.did t) ∧
    (∀ u w v, s.did t = u ++ w ++ v → ∀ pol d p o r, MatchPath G pol d p o r w → Runs G pol d p o r) ∧
    (∀ u w v, s.did t = u ++ w ++ v → ∀ (σ : Type) (H : Handler ι β σ) pol d p st o r,
      CtorPath G H pol d p st o r w → Constructs G H pol d p st o r) := by
  have hb : ∀ i, .bad i ∉ s.did t := by
    intro i hi
    obtain ⟨t', hu, hT⟩ := C82_poisoned_is_reachable hc hK hs i ((pinv_run hs).bads t i hi)
    refine ht t' hu i hT ?_
    rcases did_touches hc hK hs t _ hi with h | ⟨j, hj, hT⟩
    · cases h
    · have : i = j := hj
      subst this
      exact hT
  refine ⟨hb, fun u w v h pol d p o r hm => C82_clean_match hm fun i hi => hb i (by simp [h, hi]),
    fun u w v h σ H pol d p st o r hm => C82_clean_construct hm fun i hi => hb i (by simp [h, hi])⟩

theorem first_unwind {u u₁ v v₁ : List PEv} (h : u₁ ++ v₁ = u ++ .unwind :: v) (h1 : .unwind ∉ u₁) :
    ∃ a, u = u₁ ++ a ∧ v₁ = a ++ .unwind :: v := by
  rcases List.append_eq_append_iff.mp h with ⟨a, ha, hb⟩ | ⟨a, ha, hb⟩
  · exact ⟨a, ha, hb⟩
  · cases a with
    | nil => exact ⟨[], by simpa using ha.symm, by simpa using hb.symm⟩
    | cons x a =>
      obtain ⟨rfl, _⟩ : x = .unwind ∧ _ := by simpa using hb.symm
      exact absurd (by simp [ha]) h1

/-- The list of a thread up to the first panic: a call that was told of no poisoned
handle panicked. -/
theorem threadPath_first_panic {K : CallSet ι β} {w u v : List PEv} (h : ThreadPath G K w)
    (he : w = u ++ .unwind :: v) (hu : .unwind ∉ u) (hb : ∀ i, .bad i ∉ u) : ¬ K.NoPanic G := by
  have none' : ∀ {b w}, (touches fun _ => True).Ok b w → PEv.unwind ∉ w := by
    intro b w h hw
    obtain ⟨_, h, _⟩ := h _ hw
    exact h
  intro hK
  induction h generalizing u with
  | idle => simp at he
  | @mat pol d p o r u₁ v₁ hk hm _ ih =>
    rcases matchPath_form hm (tame_touches (T := fun _ => True) fun _ _ _ _ => trivial).1 with
      ⟨_, hok⟩ | ⟨u', rfl, rfl, hok⟩
    · obtain ⟨a, rfl, h⟩ := first_unwind he (none' hok)
      exact ih h (fun h => hu (by simp [h])) (fun i h => hb i (by simp [h]))
    · rw [List.append_assoc] at he
      obtain ⟨a, rfl, h⟩ := first_unwind he (none' hok)
      refine hK.mat hk (C82_clean_match hm fun i hi => ?_)
      exact hb i (by simpa using .inl (by simpa using hi))
  | @ctor σ H pol d p st o r u₁ v₁ hk hm _ ih =>
    rcases ctorPath_form hm ((tame_touches (T := fun _ => True) fun _ _ _ _ => trivial).2 σ H) with
      ⟨_, hok⟩ | ⟨u', rfl, rfl, hok⟩
    · obtain ⟨a, rfl, h⟩ := first_unwind he (none' hok)
      exact ih h (fun h => hu (by simp [h])) (fun i h => hb i (by simp [h]))
    · rw [List.append_assoc] at he
      obtain ⟨a, rfl, h⟩ := first_unwind he (none' hok)
      refine hK.ctor hk (C82_clean_construct hm fun i hi => ?_)
      exact hb i (by simpa using .inl (by simpa using hi))

/-- **C82 (no panic, no poisoning).** If no call of any thread would panic by itself, then
whatever the threads do no call panics, no handle is ever poisoned and no call is told
so. -/
theorem C82_no_panic_no_poison (hc : ∀ t w, (c t).Way w → ThreadPath G (K t) w)
    (hK : ∀ t, (K t).NoPanic G) (hs : PSys.Run n (PSys.start c) s) :
    (∀ i, ¬ s.poisoned i) ∧ ∀ t, .unwind ∉ s.did t ∧ ∀ i, .bad i ∉ s.did t := by
  suffices h : ∀ t, .unwind ∉ s.did t by
    have hp : ∀ i, ¬ s.poisoned i := by
      intro i hi
      obtain ⟨t, u, v, hd, _⟩ := (C82_only_panics_poison hs i).mp hi
      exact h t (by simp [hd])
    exact ⟨hp, fun t => ⟨h t, fun i hi => hp i ((pinv_run hs).bads t i hi)⟩⟩
  generalize hs₀ : PSys.start c = s₀ at hs
  induction hs with
  | refl => subst hs₀; exact fun t h => by cases h
  | @step n s₀ s' s'' hr hst ih =>
    subst hs₀
    replace ih := ih rfl
    have hi := pinv_run hr
    have hb : ∀ t i, .bad i ∉ s'.did t := by
      intro t i h
      obtain ⟨t', u, v, hd, _⟩ := hi.poi i (hi.bads t i h)
      exact ih t' (by simp [hd])
    have key : ∀ t e t', e ≠ .unwind → .unwind ∉ upd s'.did t (s'.did t ++ [e]) t' := by
      intro t e t' he h
      by_cases ht : t' = t
      · subst ht
        simp [upd_same, ih t', Ne.symm he] at h
      · rw [upd_other _ _ ht] at h
        exact ih t' h
    cases hst with
    | acquire _ _ _ => exact fun t' => key _ _ t' (by simp)
    | refuse _ _ _ => exact fun t' => key _ _ t' (by simp)
    | release _ _ => exact fun t' => key _ _ t' (by simp)
    | @unwind t a hn =>
      exfalso
      obtain ⟨w, hw⟩ := a.way
      exact threadPath_first_panic (hc t _ (hi.ways t (.unwind :: w) (hn ▸ .unwind hw))) rfl (ih t) (hb t)
        (hK t)

/-! ## Panics cause no deadlock -/

/-- **C82 (no deadlock after panics).** Any number `k` of threads share handles whose
contents use only handles of lower rank.  Each thread makes any calls, some of which
may panic; a thread that panics may be lost or may go on.  Whatever order the scheduler
picks: only so many operations happen, and as long as some thread is not done, some
thread can go on. -/
theorem C82_no_deadlock_after_panics (hG : LockOrder rank G) (k : Nat)
    (hk : ∀ t, k ≤ t → c t = .stop) (hc : ∀ t w, (c t).Way w → ThreadPath G (K t) w)
    (hK : ∀ t, (K t).InOrder rank G) (hs : PSys.Run n (PSys.start c) s) :
    n ≤ totalDepth c k ∧ ((∃ t, s.next t ≠ .stop) → ∃ s', s.Step s') := by
  have hi := pinv_run hs
  refine ⟨by have := (depth_run hk hs).1; omega, fun ⟨t, ht⟩ => ?_⟩
  have hl : Later rank s := later_of_inv hi fun t w hw => threadPath_disc hG (hK t) (hc t w hw)
  cases hn : s.next t with
  | lock i a b => exact later_progress hi hl (rank i) t ht fun j a b e => by rw [hn] at e; cases e; exact Nat.le_refl _
  | _ => exact later_progress hi hl 0 t ht fun j a b e => by rw [hn] at e; cases e

end

/-! ## The threads of the examples -/

/-- Thread 0 reads `9` and is lost; thread 1 reads `12`. -/
def courseX : Nat → Course := fun t =>
  if t = 0 then .lock 0 (.unwind .stop) .stop
  else if t = 1 then .lock 0 (.unlock 0 .stop) .stop
  else .stop

/-- Their calls. -/
def callsX : Nat → CallSet Char Nat := fun t => {
  mat := fun pol d p o => pol = none ∧ o = 0 ∧
    ((t = 0 ∧ d = ['9'] ∧ p = .cell 0) ∨ (t = 1 ∧ d = ['1', '2'] ∧ p = numOrAny))
  ctor := fun _ _ _ _ _ _ => False }

/-- Whatever they are told, they do what their calls do. -/
theorem courseX_paths (t : Nat) (w : List PEv) (h : (courseX t).Way w) : ThreadPath GX (callsX t) w := by
  by_cases h0 : t = 0
  · subst h0
    have one : ∀ {r u}, MatchPath GX none ['9'] (.cell 0) 0 r u → ThreadPath GX (callsX 0) u := by
      intro r u hu
      have := ThreadPath.mat (G := GX) (K := callsX 0) ⟨rfl, rfl, .inl ⟨rfl, rfl, rfl⟩⟩ hu .idle
      simpa using this
    simp only [courseX, if_true] at h
    cases h with
    | acq h => cases h with | unwind h => cases h; exact one path_panic
    | bad h => cases h; exact one path_panic_bad
  by_cases h1 : t = 1
  · subst h1
    have one : ∀ {r u}, MatchPath GX none ['1', '2'] numOrAny 0 r u → ThreadPath GX (callsX 1) u := by
      intro r u hu
      have := ThreadPath.mat (G := GX) (K := callsX 1) ⟨rfl, rfl, .inr ⟨rfl, rfl, rfl⟩⟩ hu .idle
      simpa using this
    simp only [courseX, h0, if_false, if_true] at h
    cases h with
    | acq h => cases h with | rel h => cases h; exact one path_ok
    | bad h => cases h; exact one path_bad
  · simp only [courseX, h0, h1, if_false] at h
    cases h
    exact .idle

/-- **C82 (a result can change silently).** A number, or else one character, matched
against `12`, gives `12`.  If another thread has panicked while it held the handle
of the number, the same call still succeeds, but gives `1`: the poisoned handle counts as
an alternative that did not match. -/
theorem C82_silent_change_counterexample :
    (∃ n s, PSys.Run n (PSys.start courseX) s ∧ s.next 1 = .stop ∧
      MatchPath GX none ['1', '2'] numOrAny 0 (.ok ⟨0, 2⟩ 2) (s.did 1)) ∧
    (∃ n s, PSys.Run n (PSys.start courseX) s ∧ s.next 1 = .stop ∧
      MatchPath GX none ['1', '2'] numOrAny 0 (.ok ⟨0, 1⟩ 1) (s.did 1)) := by
  refine ⟨⟨2, _, .step (.step (.refl _) (.acquire (t := 1) (i := 0) rfl rfl id))
      (.release (t := 1) (i := 0) rfl rfl), rfl, ?_⟩,
    ⟨3, _, .step (.step (.step (.refl _) (.acquire (t := 0) (i := 0) rfl rfl id)) (.unwind (t := 0) rfl))
      (.refuse (t := 1) (i := 0) rfl rfl (.inr rfl)), rfl, ?_⟩⟩
  · exact path_ok
  · exact path_bad

/-- The hypotheses of `C82_others_unaffected` and `C82_poisoned_is_reachable`: all calls
are within handle 0. -/
theorem callsX_within (t : Nat) : (callsX t).Within GX (fun i => t ≤ 1 ∧ i = 0) where
  mat := by
    rintro pol d p o ⟨rfl, rfl, h⟩ q hq i hi
    have ht : t ≤ 1 := by omega
    rcases hq with rfl | hq
    · have key : All GX (fun q => ∀ k, q = Pat.cell k → k = 0) (.cell 0) := by
        refine .intro (by simp) fun c hc => ?_
        simp only [Child, GX] at hc
        cases hc
        exact .intro (by simp) (by simp [Child, Cond.Has])
      rcases h with ⟨rfl, rfl, rfl⟩ | ⟨rfl, rfl, rfl⟩
      · exact ⟨ht, key _ hi i rfl⟩
      · have : All GX (fun q => ∀ k, q = Pat.cell k → k = 0) numOrAny := by
          refine .intro (by simp [numOrAny]) fun c hc => ?_
          simp only [Child, numOrAny] at hc
          rcases hc with rfl | rfl
          · exact key
          · exact .intro (by simp) (by simp [Child, Cond.Has])
        exact ⟨ht, this _ hi i rfl⟩
    · cases hq
  ctor := fun h => h.elim

/-- Numbers below pairs. -/
theorem lockOrder_GX : LockOrder id GX := by
  intro i q hq
  suffices h : All (fun _ => none) (fun q => ∀ k, q = Pat.cell k → id k < id i) q from
    fun k hk => h _ hk k rfl
  by_cases h0 : i = 0
  · subst h0
    cases hq
    exact .intro (by simp) (by simp [Child, Cond.Has])
  by_cases h1 : i = 1
  · subst h1
    cases hq
    refine .intro (by simp) fun c hc => ?_
    simp only [Child] at hc
    rcases hc with rfl | rfl
    · exact .intro (by simp) (by simp [Child])
    · exact .intro (by simp) (by simp [Child])
  by_cases h2 : i = 2
  · subst h2
    cases hq
    exact .intro (by simp [spaces]) (by simp [spaces, Child, Cond.Has])
  · simp [GX, h0, h1, h2] at hq

theorem callsX_inOrder (t : Nat) : (callsX t).InOrder id GX where
  mat := by
    rintro pol d p o ⟨rfl, _⟩ s hs
    cases hs
  ctor := fun h => h.elim

/-- So these two threads never block each other, though one of them panics. -/
example {n : Nat} {s : PSys} (hs : PSys.Run n (PSys.start courseX) s) :
    n ≤ 4 ∧ ((∃ t, s.next t ≠ .stop) → ∃ s', s.Step s') :=
  C82_no_deadlock_after_panics lockOrder_GX 2
    (fun t ht => by simp [courseX, show t ≠ 0 by omega, show t ≠ 1 by omega]) courseX_paths callsX_inOrder hs

/-- The calls of thread 1 alone do not panic. -/
theorem callsX_noPanic : (callsX 1).NoPanic GX where
  mat := by
    rintro pol d p o ⟨rfl, rfl, ⟨h, _⟩ | ⟨_, rfl, rfl⟩⟩ hr
    · cases h
    · have : Runs GX none ['1', '2'] numOrAny 0 (.ok ⟨0, 2⟩ 2) := ⟨9, by decide +kernel⟩
      cases Runs.unique hr this
  ctor := fun h => h.elim

/-- The hypotheses of `C82_no_panic_no_poison`: thread 1, and nobody else. -/
example {n : Nat} {s : PSys} (hs : PSys.Run n (PSys.start fun t => if t = 1 then courseX 1 else .stop) s) :
    ∀ i, ¬ s.poisoned i :=
  (C82_no_panic_no_poison (K := fun t => if t = 1 then callsX 1 else ⟨fun _ _ _ _ => False, fun _ _ _ _ _ _ => False⟩)
    (fun t w hw => by
      by_cases ht : t = 1
      · subst ht
        exact courseX_paths 1 w hw
      · simp only [ht, if_false] at hw ⊢
        cases hw
        exact .idle)
    (fun t => by
      by_cases ht : t = 1
      · subst ht
        exact callsX_noPanic
      · simp only [ht, if_false]
        exact ⟨fun h => h.elim, fun h => h.elim⟩) hs).1

/-- Thread 0 reads `9` and is lost; thread 2 reads white space. -/
def courseY : Nat → Course := fun t =>
  if t = 0 then courseX 0 else if t = 2 then .lock 2 (.unlock 2 .stop) .stop else .stop

def callsY : Nat → CallSet Char Nat := fun t =>
  if t = 0 then callsX 0 else {
    mat := fun pol d p o => t = 2 ∧ pol = none ∧ d = [' '] ∧ p = .cell 2 ∧ o = 0
    ctor := fun _ _ _ _ _ _ => False }

/-- The hypotheses of `C82_others_unaffected` for thread 2: it is never told of a
poisoned handle. -/
example {n : Nat} {s : PSys} (hs : PSys.Run n (PSys.start courseY) s) : ∀ i, .bad i ∉ s.did 2 := by
  have hc : ∀ t w, (courseY t).Way w → ThreadPath GX (callsY t) w := by
    intro t w h
    by_cases h0 : t = 0
    · subst h0
      exact courseX_paths 0 w h
    by_cases h2 : t = 2
    · subst h2
      have one : ∀ {r u}, MatchPath GX none [' '] (.cell 2) 0 r u → ThreadPath GX (callsY 2) u := by
        intro r u hu
        have := ThreadPath.mat (G := GX) (K := callsY 2) ⟨rfl, rfl, rfl, rfl, rfl⟩ hu .idle
        simpa using this
      simp only [courseY, h0, if_false, if_true] at h
      cases h with
      | acq h => cases h with | rel h =>
          cases h
          exact one (.returns (n := 9) (a := .ok ⟨0, 1⟩) (o' := 1) (by decide +kernel))
      | bad h =>
          cases h
          exact one (.returns (n := 9) (a := .error .mutex) (o' := 0) (by decide +kernel))
    · simp only [courseY, h0, h2, if_false] at h
      cases h
      exact .idle
  refine (C82_others_unaffected (T := fun t i => t = i) hc (fun t => ?_) hs 2 fun t' ht' i hi hi' => ?_).1
  · by_cases h0 : t = 0
    · subst h0
      exact ⟨fun h q hq i hi => ((callsX_within 0).mat h q hq i hi).2.symm, fun h => h.elim⟩
    · refine ⟨fun h q hq i hi => ?_, fun h => ?_⟩
      · simp only [callsY, h0, if_false] at h
        obtain ⟨rfl, rfl, rfl, rfl, rfl⟩ := h
        rcases hq with rfl | hq
        · have : All GX (fun q => ∀ k, q = Pat.cell k → 2 = k) (.cell 2) := by
            refine .intro (by simp) fun c hc => ?_
            simp only [Child, GX] at hc
            cases hc
            exact .intro (by simp [spaces]) (by simp [spaces, Child, Cond.Has])
          exact this _ hi i rfl
        · cases hq
      · simp only [callsY, h0, if_false] at h
  · subst hi hi'
    -- thread 2 does not panic
    obtain ⟨w, hw⟩ := (s.next 2).way
    have := (pinv_run hs).ways 2 w hw
    have h2 : ∀ w, (courseY 2).Way w → PEv.unwind ∉ w := by
      intro w h
      simp only [courseY] at h
      cases h with
      | acq h => cases h with | rel h => cases h; simp
      | bad h => cases h; simp
    exact h2 _ this (by simp [ht'])

end Neure
