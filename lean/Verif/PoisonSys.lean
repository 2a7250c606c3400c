import Verif.PoisonLemmas
/-!
# Threads with mutexes that may be poisoned
-/

namespace Neure

set_option linter.unusedSectionVars false

variable {ι β σ α : Type} [Item ι] {G : Rules ι β} {H : Handler ι β σ} {rank : Nat → Nat}
  {pol : Option (Pat ι β)} {d : List ι} {p : Pat ι β} {K : CallSet ι β}

/-! ## The lists of whole calls -/

theorem tame_done {Y : Form} {x : M (σ × List PEv) α} (h : Tame Y x) {s s' : σ} {w : List PEv}
    {o o' : Nat} {a : α} (e : x (s, w) o = some (.done a (s', []) o')) : Y.Ok false w := by
  obtain ⟨w₁, l, r, rfl, hu, hok⟩ := h s w o (by rw [e]; simp)
  have := hu.1 l
  simp only [e] at this
  cases r with
  | panic => cases this
  | done a' s'' o'' =>
    simp only [MRes.left, Option.some.injEq, MRes.done.injEq, Prod.mk.injEq] at this
    rw [← this.2.1.2, List.append_nil]
    exact hok

theorem tame_panic {Y : Form} {x : M (σ × List PEv) α} (h : Tame Y x) {s : σ} {u : List PEv}
    {o : Nat} (e : x (s, u) o = some .panic)
    (hm : ∀ u' e v, u = u' ++ e :: v → x (s, u') o ≠ some .panic) : Y.Ok true u := by
  obtain ⟨w, l, r, rfl, hu, hok⟩ := h s u o (by rw [e]; simp)
  have h1 := hu.1 l
  simp only [e] at h1
  cases r with
  | done a' s'' o'' => cases h1
  | panic =>
    cases l with
    | nil => rw [List.append_nil]; exact hok
    | cons y l =>
      have h2 := hu.1 []
      rw [List.append_nil] at h2
      exact absurd h2 (hm w y l rfl)

/-- The list of a call is of the form, up to the unwinding if it panics. -/
theorem matchPath_form {Y : Form} {o : Nat} {r : Res Span} {w : List PEv}
    (h : MatchPath G pol d p o r w) (ht : ∀ n, Tame (σ := Unit) Y (poisonMat G n pol d p)) :
    (r ≠ .panic ∧ Y.Ok false w) ∨ ∃ u, w = u ++ [.unwind] ∧ r = .panic ∧ Y.Ok true u := by
  cases h with
  | returns h =>
    refine .inl ⟨?_, tame_done (ht _) h⟩
    rename_i a _
    cases a <;> simp [resOf]
  | panics h hm => exact .inr ⟨_, rfl, rfl, tame_panic (ht _) h hm⟩

theorem ctorPath_form {Y : Form} {st : σ} {o : Nat} {r : CRes σ (Val β)} {w : List PEv}
    (h : CtorPath G H pol d p st o r w) (ht : ∀ n, Tame Y (poisonCon G H n pol d p)) :
    (r ≠ .panic ∧ Y.Ok false w) ∨ ∃ u, w = u ++ [.unwind] ∧ r = .panic ∧ Y.Ok true u := by
  cases h with
  | returns h =>
    refine .inl ⟨?_, tame_done (ht _) h⟩
    rename_i a _ _
    cases a <;> simp [cresOf]
  | panics h hm => exact .inr ⟨_, rfl, rfl, tame_panic (ht _) h hm⟩

/-! ## Which handles are touched -/

/-- The handle an operation is about. -/
def PEv.About : PEv → Nat → Prop
  | .acq i, j => i = j
  | .bad i, j => i = j
  | .rel i, j => i = j
  | .unwind, _ => False

/-- Operations on handles in `T`. -/
def touches (T : Nat → Prop) : Form where
  Ok _ w := ∀ e ∈ w, ∃ i, e.About i ∧ T i
  nil _ := fun _ h => by cases h
  app _ u v h1 h2 := fun e he => (List.mem_append.mp he).elim (h1 e) (h2 e)

theorem tame_touches {T : Nat → Prop} (h : ∀ q, q = p ∨ pol = some q → ∀ i, Desc G q (.cell i) → T i) :
    (∀ n, Tame (σ := Unit) (touches T) (poisonMat G n pol d p)) ∧
    (∀ (σ : Type) (H : Handler ι β σ) n, Tame (touches T) (poisonCon G H n pol d p)) := by
  have key := fun (σ : Type) (H : Handler ι β σ) => tame_poison (G := G) (σ := σ) (H := H)
    (Good := fun Y pol p => Y = touches T ∧ ∀ q, q = p ∨ pol = some q → ∀ i, Desc G q (.cell i) → T i)
    (by
      rintro Y pol p q _ ⟨rfl, h⟩ hc
      refine ⟨rfl, fun q' hq i hi => ?_⟩
      rcases hq with rfl | hq
      · exact h p (.inl rfl) i ((desc_of_none (.step .refl hc)).trans hi)
      · exact h q' (.inr hq) i hi)
    (by
      rintro Y s p ⟨rfl, h⟩
      refine ⟨rfl, fun q' hq i hi => ?_⟩
      rcases hq with rfl | hq
      · exact h _ (.inr rfl) i hi
      · cases hq)
    (by
      rintro Y pol i ⟨rfl, h⟩ e he
      obtain rfl : e = .bad i := by simpa using he
      exact ⟨i, rfl, h _ (.inl rfl) i .refl⟩)
    (by
      rintro Y pol i ⟨rfl, h⟩
      have hi : T i := h _ (.inl rfl) i .refl
      refine ⟨touches T, fun w hw e he => ?_, fun w hw e he => ?_, fun q hq => ⟨rfl, fun q' hq' j hj => ?_⟩⟩
      · simp only [List.mem_cons, List.mem_append, List.not_mem_nil, or_false] at he
        rcases he with rfl | he | rfl
        · exact ⟨i, rfl, hi⟩
        · exact hw e he
        · exact ⟨i, rfl, hi⟩
      · rcases List.mem_cons.mp he with rfl | he
        · exact ⟨i, rfl, hi⟩
        · exact hw e he
      · rcases hq' with rfl | hq'
        · exact h _ (.inl rfl) j ((Desc.step .refl (by exact hq)).trans hj)
        · exact h q' (.inr hq') j hj)
  exact ⟨fun n => (key Unit fun _ _ _ _ => (.panic, ())).2.1 n _ _ _ _ ⟨rfl, h⟩,
    fun σ H n => (key σ H).2.2 n _ _ _ _ ⟨rfl, h⟩⟩

/-- The list of a thread: handles in `T`, and panics. -/
theorem threadPath_touches {T : Nat → Prop} (hK : K.Within G T) {w : List PEv} (h : ThreadPath G K w) :
    ∀ e ∈ w, e = .unwind ∨ ∃ i, e.About i ∧ T i := by
  induction h with
  | idle => exact fun _ h => by cases h
  | @mat pol d p o r u v hk hu _ ih =>
    intro e he
    rcases List.mem_append.mp he with he | he
    · rcases matchPath_form hu (tame_touches (hK.mat hk)).1 with ⟨_, hok⟩ | ⟨u', rfl, _, hok⟩
      · exact .inr (hok e he)
      · rcases List.mem_append.mp he with he | he
        · exact .inr (hok e he)
        · exact .inl (by simpa using he)
    · exact ih e he
  | @ctor σ H pol d p st o r u v hk hu _ ih =>
    intro e he
    rcases List.mem_append.mp he with he | he
    · rcases ctorPath_form hu ((tame_touches (hK.ctor hk)).2 σ H) with ⟨_, hok⟩ | ⟨u', rfl, _, hok⟩
      · exact .inr (hok e he)
      · rcases List.mem_append.mp he with he | he
        · exact .inr (hok e he)
        · exact .inl (by simpa using he)
    · exact ih e he

/-! ## The order -/

/-- The rest of a list of a thread that holds `h`: it locks only what is of lower rank
than all it holds, and holds nothing in the end. -/
def Disc (rank : Nat → Nat) : List Nat → List PEv → Prop
  | h, [] => h = []
  | h, .acq i :: w => (∀ j ∈ h, rank i < rank j) ∧ Disc rank (i :: h) w
  | h, .bad i :: w => (∀ j ∈ h, rank i < rank j) ∧ Disc rank h w
  | h, .rel i :: w => ∃ h', h = i :: h' ∧ Disc rank h' w
  | _, .unwind :: w => Disc rank [] w

/-- Lists that keep to the order where the handles in `S` may be locked. -/
def inOrder (rank : Nat → Nat) (S : Nat → Prop) : Form where
  Ok b w := ∀ h v, (∀ k, S k → ∀ j ∈ h, rank k < rank j) →
    if b then Disc rank [] v → Disc rank h (w ++ .unwind :: v) else Disc rank h v → Disc rank h (w ++ v)
  nil b h v _ := by cases b <;> exact id
  app b u v h1 h2 h l hS := by
    have h1 := fun l => h1 h l hS
    have h2 := h2 h l hS
    cases b
    · intro hl
      have := h1 _ (h2 hl)
      rwa [List.append_assoc]
    · intro hl
      have := h1 _ (h2 hl)
      rwa [List.append_assoc]

theorem tame_inOrder (hG : LockOrder rank G) (hb : PolicyBelow rank G pol p) :
    (∀ n, Tame (σ := Unit) (inOrder rank fun _ => True) (poisonMat G n pol d p)) ∧
    (∀ (σ : Type) (H : Handler ι β σ) n,
      Tame (inOrder rank fun _ => True) (poisonCon G H n pol d p)) := by
  have key := fun (σ : Type) (H : Handler ι β σ) => tame_poison (G := G) (σ := σ) (H := H)
    (Good := fun Y pol p => ∃ S, Y = inOrder rank S ∧ (∀ k, Mentions p k → S k) ∧
      (∀ s, pol = some s → ∀ k, Mentions s k → S k) ∧ PolicyBelow rank G pol p)
    (by
      rintro Y pol p q _ ⟨S, rfl, h1, h2, h3⟩ hc
      exact ⟨S, rfl, fun k hk => h1 k (hk.child hc), h2, h3.desc (desc_of_none (.step .refl hc))⟩)
    (by
      rintro Y s p ⟨S, rfl, h1, h2, h3⟩
      exact ⟨S, rfl, fun k hk => h2 s rfl k hk, fun _ h => (by cases h), fun _ h => (by cases h)⟩)
    (by
      rintro Y pol i ⟨S, rfl, h1, h2, h3⟩ h v hS hv
      exact ⟨hS i (h1 i .refl), hv⟩)
    (by
      rintro Y pol i ⟨S, rfl, h1, h2, h3⟩
      have hi : S i := h1 i .refl
      have hS' : ∀ h : List Nat, (∀ k, S k → ∀ j ∈ h, rank k < rank j) →
          ∀ k, rank k < rank i → ∀ j ∈ i :: h, rank k < rank j := by
        intro h hS k hk j hj
        rcases List.mem_cons.mp hj with rfl | hj
        · exact hk
        · exact Nat.lt_trans hk (hS i hi j hj)
      refine ⟨inOrder rank fun k => rank k < rank i, fun w hw h v hS hv => ?_, fun w hw h v hS hv => ?_,
        fun q hq => ⟨_, rfl, hG i q hq, fun s hs k hk => h3 s hs k hk i .refl,
          h3.desc (.step .refl (by exact hq))⟩⟩
      · refine ⟨hS i hi, ?_⟩
        have := hw (i :: h) (.rel i :: v) (hS' h hS) ⟨h, rfl, hv⟩
        simpa using this
      · exact ⟨hS i hi, hw (i :: h) v (hS' h hS) hv⟩)
  exact ⟨fun n => (key Unit fun _ _ _ _ => (.panic, ())).2.1 n _ _ _ _
      ⟨_, rfl, fun _ _ => trivial, fun _ _ _ _ => trivial, hb⟩,
    fun σ H n => (key σ H).2.2 n _ _ _ _ ⟨_, rfl, fun _ _ => trivial, fun _ _ _ _ => trivial, hb⟩⟩

theorem threadPath_disc (hG : LockOrder rank G) (hK : K.InOrder rank G) {w : List PEv}
    (h : ThreadPath G K w) : Disc rank [] w := by
  induction h with
  | idle => rfl
  | @mat pol d p o r u v hk hu _ ih =>
    rcases matchPath_form hu (tame_inOrder hG (hK.mat hk)).1 with ⟨_, hok⟩ | ⟨u', rfl, _, hok⟩
    · exact hok [] v (fun _ _ _ h => by cases h) ih
    · have := hok [] v (fun _ _ _ h => by cases h) ih
      simpa using this
  | @ctor σ H pol d p st o r u v hk hu _ ih =>
    rcases ctorPath_form hu ((tame_inOrder hG (hK.ctor hk)).2 σ H) with ⟨_, hok⟩ | ⟨u', rfl, _, hok⟩
    · exact hok [] v (fun _ _ _ h => by cases h) ih
    · have := hok [] v (fun _ _ _ h => by cases h) ih
      simpa using this

/-! ## Courses -/

theorem Course.way (c : Course) : ∃ w, c.Way w := by
  induction c with
  | stop => exact ⟨_, .stop⟩
  | lock i a b ha _ => exact ⟨_, .acq ha.choose_spec⟩
  | unlock i a ha => exact ⟨_, .rel ha.choose_spec⟩
  | unwind a ha => exact ⟨_, .unwind ha.choose_spec⟩

theorem holding_append (h : List Nat) (u v : List PEv) :
    holding h (u ++ v) = holding (holding h u) v := by
  induction u generalizing h with
  | nil => rfl
  | cons e u ih => cases e <;> exact ih _

theorem mem_holding {h : List Nat} {u : List PEv} {i : Nat} (hi : i ∈ holding h u) :
    i ∈ h ∨ .acq i ∈ u := by
  induction u generalizing h with
  | nil => exact .inl hi
  | cons e u ih =>
    cases e with
    | acq j =>
      rcases ih hi with h' | h'
      · rcases List.mem_cons.mp h' with rfl | h'
        · exact .inr (by simp)
        · exact .inl h'
      · exact .inr (by simp [h'])
    | bad j => exact (ih hi).imp id fun h => by simp [h]
    | rel j => exact (ih hi).imp List.mem_of_mem_erase fun h => by simp [h]
    | unwind => exact (ih hi).elim (fun h => by cases h) fun h => .inr (by simp [h])

/-! ## The invariant -/

structure PInv (c : Nat → Course) (s : PSys) : Prop where
  ways : ∀ t w, (s.next t).Way w → (c t).Way (s.did t ++ w)
  own : ∀ i t, s.owner i = some t ↔ i ∈ holding [] (s.did t)
  nodup : ∀ t, (holding [] (s.did t)).Nodup
  poi : ∀ i, s.poisoned i → ∃ t u v, s.did t = u ++ .unwind :: v ∧ i ∈ holding [] u
  bads : ∀ t i, .bad i ∈ s.did t → s.poisoned i

theorem upd_same {α : Type} (f : Nat → α) (i : Nat) (a : α) : upd f i a i = a := by simp [upd]
theorem upd_other {α : Type} (f : Nat → α) {i j : Nat} (a : α) (h : j ≠ i) : upd f i a j = f j := by
  simp [upd, h]

theorem poi_grow {did : Nat → List PEv} {t i : Nat} {e : PEv}
    (h : ∃ t u v, did t = u ++ .unwind :: v ∧ i ∈ holding [] u) :
    ∃ t' u v, upd did t (did t ++ [e]) t' = u ++ .unwind :: v ∧ i ∈ holding [] u := by
  obtain ⟨t', u, v, h1, h2⟩ := h
  by_cases ht : t' = t
  · subst ht
    exact ⟨t', u, v ++ [e], by rw [upd_same, h1]; simp, h2⟩
  · exact ⟨t', u, v, by rw [upd_other _ _ ht, h1], h2⟩

theorem ways_grow {c : Nat → Course} {s : PSys} {t : Nat} {a : Course} {e : PEv}
    (h : ∀ t w, (s.next t).Way w → (c t).Way (s.did t ++ w))
    (ha : ∀ w, a.Way w → (s.next t).Way (e :: w)) :
    ∀ t' w, (upd s.next t a t').Way w → (c t').Way (upd s.did t (s.did t ++ [e]) t' ++ w) := by
  intro t' w hw
  by_cases ht : t' = t
  · subst ht
    rw [upd_same] at hw ⊢
    have := h t' _ (ha w hw)
    simpa using this
  · rw [upd_other _ _ ht] at hw ⊢
    exact h t' w hw

theorem pinv_start (c : Nat → Course) : PInv c (PSys.start c) where
  ways t w h := h
  own i t := by simp [PSys.start, holding]
  nodup t := by simp [PSys.start, holding]
  poi i h := by cases h
  bads t i h := by cases h

theorem pinv_step {c : Nat → Course} {s s' : PSys} (hi : PInv c s) (hs : s.Step s') : PInv c s' := by
  cases hs with
  | @acquire t i a b hn ho hp =>
    have hfree : ∀ t', i ∉ holding [] (s.did t') := fun t' h => by
      have := (hi.own i t').mpr h
      rw [ho] at this; cases this
    have hh : holding [] (s.did t ++ [.acq i]) = i :: holding [] (s.did t) := by
      rw [holding_append]; rfl
    refine ⟨ways_grow hi.ways fun w hw => hn ▸ .acq hw, fun j t' => ?_, fun t' => ?_,
      fun j hj => poi_grow (hi.poi j hj), fun t' j hj => ?_⟩
    · by_cases ht : t' = t
      · subst ht
        simp only [upd_same, hh]
        by_cases hj : j = i
        · subst hj; simp [upd_same]
        · simp [upd_other _ _ hj, hi.own, hj]
      · simp only [upd_other _ _ ht]
        by_cases hj : j = i
        · subst hj
          simp only [upd_same, Option.some.injEq]
          exact ⟨fun h => absurd h.symm ht, fun h => absurd h (hfree t')⟩
        · rw [upd_other _ _ hj]; exact hi.own j t'
    · by_cases ht : t' = t
      · subst ht
        simp only [upd_same, hh]
        exact List.nodup_cons.mpr ⟨hfree t', hi.nodup t'⟩
      · simp only [upd_other _ _ ht]; exact hi.nodup t'
    · by_cases ht : t' = t
      · subst ht
        simp only [upd_same, List.mem_append, List.mem_singleton, reduceCtorEq, or_false] at hj
        exact hi.bads t' j hj
      · simp only [upd_other _ _ ht] at hj; exact hi.bads t' j hj
  | @refuse t i a b hn ho hp =>
    have hh : holding [] (s.did t ++ [.bad i]) = holding [] (s.did t) := by
      rw [holding_append]; rfl
    refine ⟨ways_grow hi.ways fun w hw => hn ▸ .bad hw, fun j t' => ?_, fun t' => ?_,
      fun j hj => poi_grow (hi.poi j hj), fun t' j hj => ?_⟩
    · by_cases ht : t' = t
      · subst ht
        simp only [upd_same, hh]
        exact hi.own j t'
      · simp only [upd_other _ _ ht]; exact hi.own j t'
    · by_cases ht : t' = t
      · subst ht
        simp only [upd_same, hh]
        exact hi.nodup t'
      · simp only [upd_other _ _ ht]; exact hi.nodup t'
    · by_cases ht : t' = t
      · subst ht
        simp only [upd_same, List.mem_append, List.mem_singleton, PEv.bad.injEq] at hj
        rcases hj with hj | rfl
        · exact hi.bads t' j hj
        · exact hp
      · simp only [upd_other _ _ ht] at hj; exact hi.bads t' j hj
  | @release t i a hn ho =>
    have hh : holding [] (s.did t ++ [.rel i]) = (holding [] (s.did t)).erase i := by
      rw [holding_append]; rfl
    refine ⟨ways_grow hi.ways fun w hw => hn ▸ .rel hw, fun j t' => ?_, fun t' => ?_,
      fun j hj => poi_grow (hi.poi j hj), fun t' j hj => ?_⟩
    · by_cases ht : t' = t
      · subst ht
        simp only [upd_same, hh]
        by_cases hj : j = i
        · subst hj
          simp only [upd_same]
          exact ⟨fun h => (by cases h), fun h => absurd rfl ((hi.nodup t').mem_erase_iff.mp h).1⟩
        · rw [upd_other _ _ hj, List.mem_erase_of_ne hj]
          exact hi.own j t'
      · simp only [upd_other _ _ ht]
        by_cases hj : j = i
        · subst hj
          simp only [upd_same]
          refine ⟨fun h => (by cases h), fun h => ?_⟩
          have := (hi.own j t').mpr h
          rw [ho] at this
          exact absurd (Option.some.inj this).symm ht
        · rw [upd_other _ _ hj]; exact hi.own j t'
    · by_cases ht : t' = t
      · subst ht
        simp only [upd_same, hh]
        exact (hi.nodup t').erase i
      · simp only [upd_other _ _ ht]; exact hi.nodup t'
    · by_cases ht : t' = t
      · subst ht
        simp only [upd_same, List.mem_append, List.mem_singleton, reduceCtorEq, or_false] at hj
        exact hi.bads t' j hj
      · simp only [upd_other _ _ ht] at hj; exact hi.bads t' j hj
  | @unwind t a hn =>
    have hh : holding [] (s.did t ++ [.unwind]) = [] := by
      rw [holding_append]; rfl
    refine ⟨ways_grow hi.ways fun w hw => hn ▸ .unwind hw, fun j t' => ?_, fun t' => ?_,
      fun j hj => ?_, fun t' j hj => ?_⟩
    · by_cases ht : t' = t
      · subst ht
        simp only [upd_same, hh]
        by_cases hj : s.owner j = some t'
        · simp [hj]
        · simp [hj]
      · simp only [upd_other _ _ ht]
        by_cases hj : s.owner j = some t
        · simp only [hj, if_true]
          refine ⟨fun h => (by cases h), fun h => ?_⟩
          have := (hi.own j t').mpr h
          rw [hj] at this
          exact absurd (Option.some.inj this).symm ht
        · simp only [hj, if_false]; exact hi.own j t'
    · by_cases ht : t' = t
      · subst ht
        simp [upd_same, hh]
      · simp only [upd_other _ _ ht]; exact hi.nodup t'
    · rcases hj with hj | hj
      · exact poi_grow (hi.poi j hj)
      · exact ⟨t, s.did t, [], by simp [upd_same], (hi.own j t).mp hj⟩
    · by_cases ht : t' = t
      · subst ht
        simp only [upd_same, List.mem_append, List.mem_singleton, reduceCtorEq, or_false] at hj
        exact .inl (hi.bads t' j hj)
      · simp only [upd_other _ _ ht] at hj; exact .inl (hi.bads t' j hj)

theorem pinv_run {c : Nat → Course} {n : Nat} {s : PSys} (h : PSys.Run n (PSys.start c) s) :
    PInv c s := by
  generalize hs : PSys.start c = s₀ at h
  induction h with
  | refl => exact hs ▸ pinv_start c
  | step _ hst ih => exact pinv_step (ih hs) hst

/-- Poisoned once, poisoned for ever. -/
theorem poisoned_step {s s' : PSys} (h : s.Step s') {i : Nat} (hi : s.poisoned i) : s'.poisoned i := by
  cases h with
  | acquire => exact hi
  | refuse => exact hi
  | release => exact hi
  | unwind => exact .inl hi

/-- What was held in a panic is poisoned. -/
theorem left_poisoned {c : Nat → Course} {n : Nat} {s : PSys} (h : PSys.Run n (PSys.start c) s) :
    ∀ t u v, s.did t = u ++ .unwind :: v → ∀ i, i ∈ holding [] u → s.poisoned i := by
  generalize hs : PSys.start c = s₀ at h
  induction h with
  | refl =>
    subst hs
    intro t u v h
    simp [PSys.start] at h
  | @step n s₀ s' s'' hr hst ih =>
    subst hs
    replace ih := ih rfl
    have hi := pinv_run hr
    have old : ∀ t e t' u v, upd s'.did t (s'.did t ++ [e]) t' = u ++ .unwind :: v →
        (∃ v', s'.did t' = u ++ .unwind :: v') ∨ (e = .unwind ∧ t' = t ∧ u = s'.did t) := by
      intro t e t' u v h
      by_cases ht : t' = t
      · subst ht
        rw [upd_same] at h
        rcases List.eq_nil_or_concat v with rfl | ⟨v', x, rfl⟩
        · obtain ⟨h1, h2⟩ := List.append_inj' h rfl
          exact .inr ⟨by simpa using h2, rfl, h1.symm⟩
        · rw [List.concat_eq_append, ← List.cons_append, ← List.append_assoc] at h
          exact .inl ⟨v', (List.append_inj' h rfl).1⟩
      · rw [upd_other _ _ ht] at h
        exact .inl ⟨v, h⟩
    intro t u v h i hm
    cases hst with
    | acquire _ _ _ =>
      rcases old _ _ _ _ _ h with ⟨v', h'⟩ | ⟨h', _⟩
      · exact ih _ _ _ h' i hm
      · cases h'
    | refuse _ _ _ =>
      rcases old _ _ _ _ _ h with ⟨v', h'⟩ | ⟨h', _⟩
      · exact ih _ _ _ h' i hm
      · cases h'
    | release _ _ =>
      rcases old _ _ _ _ _ h with ⟨v', h'⟩ | ⟨h', _⟩
      · exact ih _ _ _ h' i hm
      · cases h'
    | unwind _ =>
      rcases old _ _ _ _ _ h with ⟨v', h'⟩ | ⟨_, rfl, rfl⟩
      · exact .inl (ih _ _ _ h' i hm)
      · exact .inr ((hi.own i _).mpr hm)

theorem poisoned_run {n : Nat} {s s' : PSys} (h : PSys.Run n s s') {i : Nat} (hi : s.poisoned i) :
    s'.poisoned i ∧ ∀ t, ∃ w, s'.did t = s.did t ++ w ∧ .acq i ∉ w := by
  induction h with
  | refl => exact ⟨hi, fun t => ⟨[], by simp, by simp⟩⟩
  | @step n s₀ s₁ s₂ _ hst ih =>
    obtain ⟨hp, hd⟩ := ih hi
    refine ⟨poisoned_step hst hp, fun t => ?_⟩
    have grow : ∀ t' e, e ≠ .acq i → ∀ {did : Nat → List PEv}, (∀ t, ∃ w, did t = s₀.did t ++ w ∧ .acq i ∉ w) →
        ∃ w, upd did t' (did t' ++ [e]) t = s₀.did t ++ w ∧ .acq i ∉ w := by
      intro t' e he did hd
      obtain ⟨w, h1, h2⟩ := hd t
      by_cases ht : t = t'
      · subst ht
        exact ⟨w ++ [e], by rw [upd_same, h1, List.append_assoc], by simp [h2, Ne.symm he]⟩
      · exact ⟨w, by rw [upd_other _ _ ht, h1], h2⟩
    cases hst with
    | @acquire t' j a b _ _ hn => exact grow t' (.acq j) (fun h => hn (by injection h with h; exact h ▸ hp)) hd
    | refuse _ _ _ => exact grow _ _ (by simp) hd
    | release _ _ => exact grow _ _ (by simp) hd
    | unwind _ => exact grow _ _ (by simp) hd

/-! ## Going on -/

/-- What all ways from here on have in common. -/
def Later (rank : Nat → Nat) (s : PSys) : Prop :=
  ∀ t w, (s.next t).Way w → Disc rank (holding [] (s.did t)) w

theorem disc_append {h : List Nat} {u v : List PEv} (hd : Disc rank h (u ++ v)) :
    Disc rank (holding h u) v := by
  induction u generalizing h with
  | nil => exact hd
  | cons e u ih =>
    cases e with
    | acq i => exact ih hd.2
    | bad i => exact ih hd.2
    | rel i =>
      obtain ⟨h', rfl, hd⟩ := hd
      have := ih hd
      simpa [holding] using this
    | unwind => exact ih hd

theorem later_of_inv {c : Nat → Course} {s : PSys} (hi : PInv c s)
    (hc : ∀ t w, (c t).Way w → Disc rank [] w) : Later rank s :=
  fun t w hw => disc_append (hc t _ (hi.ways t w hw))

/-- A thread that is not done can go on, or another one can. -/
theorem later_progress {c : Nat → Course} {s : PSys} (hi : PInv c s) (hl : Later rank s) :
    ∀ (m t : Nat), s.next t ≠ .stop → (∀ i a b, s.next t = .lock i a b → rank i ≤ m) →
      ∃ s', s.Step s' := by
  intro m
  induction m using Nat.strongRecOn with
  | _ m ih =>
    intro t ht hm
    cases hn : s.next t with
    | stop => exact absurd hn ht
    | unlock i a =>
      obtain ⟨w, hw⟩ := a.way
      obtain ⟨h', hh, _⟩ := hl t (.rel i :: w) (hn ▸ .rel hw)
      exact ⟨_, .release hn ((hi.own i t).mpr (by rw [hh]; simp))⟩
    | unwind a => exact ⟨_, .unwind hn⟩
    | lock i a b =>
      cases ho : s.owner i with
      | none =>
        by_cases hp : s.poisoned i
        · exact ⟨_, .refuse hn ho hp⟩
        · exact ⟨_, .acquire hn ho hp⟩
      | some t' =>
        have hmem := (hi.own i t').mp ho
        have hstop : s.next t' ≠ .stop := by
          intro e
          have h0 : holding [] (s.did t') = [] := hl t' [] (e ▸ .stop)
          rw [h0] at hmem; cases hmem
        cases hn' : s.next t' with
        | stop => exact absurd hn' hstop
        | unlock j a' =>
          obtain ⟨w, hw⟩ := a'.way
          obtain ⟨h', hh, _⟩ := hl t' (.rel j :: w) (hn' ▸ .rel hw)
          exact ⟨_, .release hn' ((hi.own j t').mpr (by rw [hh]; simp))⟩
        | unwind a' => exact ⟨_, .unwind hn'⟩
        | lock j a' b' =>
          obtain ⟨w, hw⟩ := a'.way
          have hlt : rank j < rank i := (hl t' (.acq j :: w) (hn' ▸ .acq hw)).1 i hmem
          have := hm i a b hn
          refine ih (rank j) (by omega) t' hstop fun k a'' b'' e => ?_
          rw [hn'] at e
          cases e
          exact Nat.le_refl _

/-! ## How long it takes -/

theorem totalDepth_upd {c : Nat → Course} {t k : Nat} {a : Course} (ht : t < k)
    (h : a.depth + 1 ≤ (c t).depth) : totalDepth (upd c t a) k + 1 ≤ totalDepth c k := by
  have same : ∀ k, k ≤ t → totalDepth (upd c t a) k = totalDepth c k := by
    intro k hk
    induction k with
    | zero => rfl
    | succ k ih => simp only [totalDepth, ih (by omega), upd_other c a (show k ≠ t by omega)]
  induction k with
  | zero => omega
  | succ k ih =>
    simp only [totalDepth]
    by_cases hk : t = k
    · subst hk
      rw [same _ (Nat.le_refl _), upd_same]
      omega
    · rw [upd_other c a (fun e => hk e.symm)]
      have := ih (by omega)
      omega

theorem depth_step {s s' : PSys} {k : Nat} (hk : ∀ t, k ≤ t → s.next t = .stop) (h : s.Step s') :
    totalDepth s'.next k + 1 ≤ totalDepth s.next k ∧ ∀ t, k ≤ t → s'.next t = .stop := by
  have key : ∀ t a, s.next t ≠ .stop → a.depth + 1 ≤ (s.next t).depth →
      totalDepth (upd s.next t a) k + 1 ≤ totalDepth s.next k ∧
        ∀ t', k ≤ t' → upd s.next t a t' = .stop := by
    intro t a hne hd
    have ht : t < k := Classical.byContradiction fun h => hne (hk t (by omega))
    exact ⟨totalDepth_upd ht hd, fun t' ht' => by rw [upd_other _ _ (by omega)]; exact hk t' ht'⟩
  cases h with
  | acquire hn ho hp => exact key _ _ (by rw [hn]; simp) (by rw [hn]; simp only [Course.depth]; omega)
  | refuse hn ho hp => exact key _ _ (by rw [hn]; simp) (by rw [hn]; simp only [Course.depth]; omega)
  | release hn ho => exact key _ _ (by rw [hn]; simp) (by rw [hn]; simp only [Course.depth]; omega)
  | unwind hn => exact key _ _ (by rw [hn]; simp) (by rw [hn]; simp only [Course.depth]; omega)

theorem depth_run {c : Nat → Course} {k n : Nat} {s : PSys} (hk : ∀ t, k ≤ t → c t = .stop)
    (h : PSys.Run n (PSys.start c) s) :
    n + totalDepth s.next k ≤ totalDepth c k ∧ ∀ t, k ≤ t → s.next t = .stop := by
  generalize hs : PSys.start c = s₀ at h
  induction h with
  | refl => subst hs; exact ⟨by simp [PSys.start], hk⟩
  | step _ hst ih =>
    obtain ⟨h1, h2⟩ := ih hs
    obtain ⟨h3, h4⟩ := depth_step h2 hst
    exact ⟨by omega, h4⟩

end Neure
