import Verif.Find
import Verif.CoreInv
/-!
# Lemmas on the search loops
-/

namespace Neure

set_option linter.unusedSectionVars false

variable {ι β : Type} [Item ι]

section Loop

variable {α : Type} {len : Nat} {func : Processor} {h : Span → Out α}

theorem findBody_le {l l' : Nat → Option (Res (Option α))} (hl : ∀ o, Le (l o) (l' o))
    (ret : Except Error Span) (o : Nat) : Le (findBody func h l ret o) (findBody func h l' ret o) := by
  unfold findBody
  split
  · exact hl _
  · split
    · exact Le.refl _
    · exact hl _
    · exact Le.refl _

theorem findLoop_le {mt mt' : Nat → Option (Res Span)} (hm : ∀ o, Le (mt o) (mt' o)) (n m : Nat)
    (hnm : n ≤ m) (o : Nat) : Le (findLoop mt len func h n o) (findLoop mt' len func h m o) := by
  induction n generalizing m o with
  | zero => exact Le.none _
  | succ n ih =>
    obtain ⟨m, rfl⟩ : ∃ k, m = k + 1 := ⟨m - 1, by omega⟩
    simp only [findLoop]
    refine ite_le ?_ (Le.refl _)
    exact caseR_le (hm o) (fun _ _ => findBody_le (fun o => ih m (by omega) o) _ _)
      (fun _ _ => findBody_le (fun o => ih m (by omega) o) _ _)

/-- One iteration of the search loop, fuel-free: what `findBody` leads to. -/
def BodyGives (func : Processor) (h : Span → Out α) (K : Nat → Res (Option α) → Prop)
    (ret : Except Error Span) (o : Nat) (r : Res (Option α)) : Prop :=
  match func ret o with
  | (none, o2) => K o2 r
  | (some s, o2) => match h s with
    | .ok a => r = .ok (some a) o2
    | .err _ => K o2 r
    | .panic => r = .panic

theorem findLoop_iff {mtf : Nat → Nat → Option (Res Span)} (hm : ∀ o, Mono fun n => mtf n o) (o : Nat)
    (r : Res (Option α)) :
    (∃ n, findLoop (mtf n) len func h n o = some r) ↔
      if o < len then ∃ v, (∃ n, mtf n o = some v) ∧ (match v with
        | .ok s o' => BodyGives func h (fun o r => ∃ n, findLoop (mtf n) len func h n o = some r)
            (.ok s) o' r
        | .err e o' => BodyGives func h (fun o r => ∃ n, findLoop (mtf n) len func h n o = some r)
            (.error e) o' r
        | .panic => r = .panic)
      else r = .ok none o := by
  have mono : ∀ n m o x, n ≤ m → findLoop (mtf n) len func h n o = some x →
      findLoop (mtf m) len func h m o = some x :=
    fun n m o x hnm hx => findLoop_le (fun o => hm o n m hnm) n m hnm o x hx
  have up : ∀ n o x, findLoop (mtf (n + 1)) len func h n o = some x →
      ∃ k, findLoop (mtf k) len func h k o = some x :=
    fun n o x hx => ⟨n + 1, findLoop_le (fun o => Le.refl _) n (n + 1) (by omega) o x hx⟩
  have body1 : ∀ n ret o', findBody func h (findLoop (mtf (n + 1)) len func h n) ret o' = some r →
      BodyGives func h (fun o r => ∃ n, findLoop (mtf n) len func h n o = some r) ret o' r := by
    intro n ret o' hb
    unfold findBody at hb
    unfold BodyGives
    split at hb
    · next heq => rw [heq]; exact up _ _ _ hb
    · next heq =>
      rw [heq]
      dsimp only
      split at hb
      · next heq => rw [heq]; exact (Option.some.inj hb).symm
      · next heq => rw [heq]; exact up _ _ _ hb
      · next heq => rw [heq]; exact (Option.some.inj hb).symm
  have body2 : ∀ ret o', BodyGives func h (fun o r => ∃ n, findLoop (mtf n) len func h n o = some r)
      ret o' r → ∃ N, ∀ n, N ≤ n → findBody func h (findLoop (mtf (n + 1)) len func h n) ret o' = some r := by
    intro ret o' hb
    have aux : ∀ o2, (∃ n, findLoop (mtf n) len func h n o2 = some r) →
        ∃ N, ∀ n, N ≤ n → findLoop (mtf (n + 1)) len func h n o2 = some r := by
      rintro o2 ⟨N, hN⟩
      exact ⟨N, fun n hn => findLoop_le (fun o => hm o N (n + 1) (by omega)) N n hn o2 r hN⟩
    unfold BodyGives at hb
    unfold findBody
    split at hb
    · next heq => rw [heq]; exact aux _ hb
    · next heq =>
      rw [heq]
      dsimp only
      split at hb
      · next heq => rw [heq]; exact ⟨0, fun _ _ => by rw [hb]⟩
      · next heq => rw [heq]; exact aux _ hb
      · next heq => rw [heq]; exact ⟨0, fun _ _ => by rw [hb]⟩
  constructor
  · rintro ⟨n, hn⟩
    cases n with
    | zero => cases hn
    | succ n =>
      simp only [findLoop] at hn
      split at hn
      · next hlt =>
        rw [if_pos hlt]
        cases hv : mtf (n + 1) o with
        | none => simp [hv, caseR] at hn
        | some v =>
          refine ⟨v, ⟨_, hv⟩, ?_⟩
          rw [hv] at hn
          cases v with
          | ok s o' => exact body1 _ _ _ hn
          | err e o' => exact body1 _ _ _ hn
          | panic => exact (Option.some.inj hn).symm
      · next hlt => rw [if_neg hlt]; exact (Option.some.inj hn).symm
  · intro hc
    by_cases hlt : o < len
    · rw [if_pos hlt] at hc
      obtain ⟨v, ⟨n, hn⟩, hv⟩ := hc
      have fin : ∀ N, (∀ m, N ≤ m → caseR (some v)
          (fun s o' => findBody func h (findLoop (mtf (m + 1)) len func h m) (.ok s) o')
          (fun e o' => findBody func h (findLoop (mtf (m + 1)) len func h m) (.error e) o') = some r) →
          ∃ n, findLoop (mtf n) len func h n o = some r := by
        intro N hN
        refine ⟨max n N + 1, ?_⟩
        simp only [findLoop, if_pos hlt]
        rw [show mtf (max n N + 1) o = some v from hm o n (max n N + 1) (by omega) v hn]
        exact hN _ (by omega)
      cases v with
      | ok s o' => obtain ⟨N, hN⟩ := body2 _ _ hv; exact fin N hN
      | err e o' => obtain ⟨N, hN⟩ := body2 _ _ hv; exact fin N hN
      | panic => exact fin 0 fun _ _ => by rw [hv]; rfl
    · rw [if_neg hlt] at hc
      exact ⟨1, by simp [findLoop, hlt, hc]⟩

theorem findLoop_mono {mtf : Nat → Nat → Option (Res Span)} (hm : ∀ o, Mono fun n => mtf n o)
    (o : Nat) : Mono fun n => findLoop (mtf n) len func h n o :=
  fun n m hnm => findLoop_le (fun o => hm o n m hnm) n m hnm o

/-- `drain`, fuel-free. -/
theorem drain_iff {nx : Nat → Nat → Option (Res (Option α))} (hm : ∀ o, Mono fun n => nx n o) (o : Nat)
    (l : List α) (o' : Nat) :
    (∃ n, drain (nx n) n o = some (.ok l o')) ↔
      match l with
      | [] => ∃ n, nx n o = some (.ok none o')
      | a :: l => ∃ o1, (∃ n, nx n o = some (.ok (some a) o1)) ∧
          ∃ n, drain (nx n) n o1 = some (.ok l o') := by
  have le : ∀ n m k k' o x, n ≤ m → k ≤ k' → drain (nx n) k o = some x → drain (nx m) k' o = some x := by
    intro n m k k' o x hnm hk
    induction k generalizing k' o x with
    | zero => intro hx; cases hx
    | succ k ih =>
      obtain ⟨k', rfl⟩ : ∃ j, k' = j + 1 := ⟨k' - 1, by omega⟩
      simp only [drain]
      refine caseR_le (hm o n m hnm) (fun a o' => ?_) (fun _ _ => Le.refl _) x
      cases a with
      | none => exact Le.refl _
      | some a =>
        exact caseR_le (fun y hy => ih k' o' y (by omega) hy) (fun _ _ => Le.refl _) (fun _ _ => Le.refl _)
  constructor
  · rintro ⟨n, hn⟩
    cases n with
    | zero => cases hn
    | succ n =>
      simp only [drain] at hn
      cases hv : nx (n + 1) o with
      | none => simp [hv, caseR] at hn
      | some v =>
        rw [hv] at hn
        cases v with
        | err e o1 => cases hn
        | panic => cases hn
        | ok a o1 =>
          cases a with
          | none =>
            simp only [caseR, Option.some.injEq, Res.ok.injEq] at hn
            obtain ⟨rfl, rfl⟩ := hn
            exact ⟨_, hv⟩
          | some a =>
            simp only [caseR] at hn
            cases hd : drain (nx (n + 1)) n o1 with
            | none => simp [hd] at hn
            | some w =>
              rw [hd] at hn
              cases w with
              | err e o2 => cases hn
              | panic => cases hn
              | ok l2 o2 =>
                simp only [Option.some.injEq, Res.ok.injEq] at hn
                obtain ⟨rfl, rfl⟩ := hn
                exact ⟨o1, ⟨_, hv⟩, n + 1, le _ _ _ _ _ _ (by omega) (by omega) hd⟩
  · intro hc
    cases l with
    | nil =>
      obtain ⟨n, hn⟩ := hc
      refine ⟨n + 1, ?_⟩
      simp only [drain]
      rw [show nx (n + 1) o = _ from hm o n (n + 1) (by omega) _ hn]
      rfl
    | cons a l =>
      obtain ⟨o1, ⟨n, hn⟩, m, hd⟩ := hc
      refine ⟨max n m + 1, ?_⟩
      simp only [drain]
      rw [show nx (max n m + 1) o = _ from hm o n (max n m + 1) (by omega) _ hn]
      simp only [caseR]
      rw [le _ (max n m + 1) _ (max n m) _ _ (by omega) (by omega) hd]

end Loop

/-! ## Positions inside a character -/

/-- Post-condition: nothing is consumed. -/
def StuckAt (o : Nat) : Res Span → Prop
  | .ok s o' => s = ⟨o, 0⟩ ∧ o' = o
  | .err _ o' => o' = o
  | .panic => True

theorem LeafPost.stuck {d : List ι} {o : Nat} {tp : Prop} {r : Res Span} (ho : ¬ Valid d o)
    (h : LeafPost d o tp r) : StuckAt o r := by
  have hn : dropB d o = none := by
    cases hd : dropB d o with
    | none => rfl
    | some l => exact absurd (valid_iff_dropB.mpr ⟨l, hd⟩) ho
  cases r with
  | ok s o' =>
    obtain ⟨h1, h2, h3⟩ := h
    rw [hn] at h3
    simp only [reduceCtorEq, false_and, exists_false, false_or] at h3
    obtain ⟨b, l⟩ := s
    simp only at *
    subst h1 h3
    exact ⟨rfl, h2⟩
  | err e o' => exact h
  | panic => trivial

theorem stuck_mat {G : Rules ι β} {pol : Option (Pat ι β)} {n : Nat} {d : List ι} {q : Pat ι β} {o : Nat}
    (hpol : ∀ w, pol = some w → Sat (parse G n none d w o) (StuckAt o))
    (hq : Sat (parse G n pol d q o) (StuckAt o)) : Sat (matWith (parse G n) pol d q o) (StuckAt o) := by
  cases pol with
  | none => exact hq
  | some w =>
    refine sat_caseR (hpol w rfl) (fun s o1 h1 => ?_) (fun e o1 h1 => Sat.some h1) id
    obtain ⟨rfl, rfl⟩ := h1
    exact hq

theorem stuck_inv_in (G : Rules ι β) (pol : Option (Pat ι β)) (n : Nat) (d : List ι) (p : Pat ι β) (o : Nat)
    (ho : ¬ Valid d o) (hle : o ≤ blen d)
    (hpol : ∀ n q, pol = some q → Sat (parse G n none d q o) (StuckAt o)) (h : All G Aligned p) :
    Sat (parse G n pol d p o) (StuckAt o) := by
  induction n generalizing p with
  | zero => exact Sat.none
  | succ n ih =>
    have I : ∀ q, Child G q p → Sat (matWith (parse G n) pol d q o) (StuckAt o) :=
      fun q hc => stuck_mat (hpol n) (ih q (h.child hc))
    have E : ∀ (e : Error), Sat (some (Res.err e o : Res Span)) (StuckAt o) := fun e => Sat.some rfl
    have K : Sat (some (Res.ok ⟨o, 0⟩ o)) (StuckAt o) := Sat.some ⟨rfl, rfl⟩
    have A : ∀ {s : Span}, (⟨o, 0⟩ : Span).addAssign ⟨o, 0⟩ = some s → s = ⟨o, 0⟩ := by
      intro s hs
      simpa [Span.addAssign] using hs.symm
    have fin : ∀ ok e cnt, Sat (finish ok e o cnt ⟨o, 0⟩ o) (StuckAt o) := by
      intro ok e cnt; unfold finish; split
      · exact K
      · exact E _
    have loopR : ∀ (q : Pat ι β) (more : Nat → Bool) (ok : Nat → Bool) (e : Error), Child G q p →
        Sat (repLoop (matWith (parse G n) pol d) q more (finish ok e o) n 0 ⟨o, 0⟩ o)
          (StuckAt o) := by
      intro q more ok e hc
      refine sat_repLoop (fun _ t o' => t = ⟨o, 0⟩ ∧ o' = o) (fun cnt t o' hJ _ => ?_)
        (fun _ _ _ h _ => by rw [h.1, h.2]; exact fin _ _ _) _ _ _ _ ⟨rfl, rfl⟩
      obtain ⟨rfl, rfl⟩ := hJ
      refine (I q hc).imp fun r hr => ?_
      cases r with
      | ok s o'' =>
        obtain ⟨rfl, rfl⟩ := hr
        exact ⟨fun t' ht => ⟨A ht, rfl⟩, fun _ => trivial⟩
      | err e o'' => simp only [StuckAt] at hr; subst hr; exact fin _ _ _
      | panic => trivial
    have loopS : ∀ (q s : Pat ι β) (skip : Bool) (more : Nat → Bool) (ok : Nat → Bool) (e : Error),
        Child G q p → Child G s p →
        Sat (sepLoop (matWith (parse G n) pol d) q s skip more (finish ok e o) n 0 ⟨o, 0⟩ o)
          (StuckAt o) := by
      intro q s skip more ok e hc hc'
      refine sat_sepLoop (fun _ t o' => t = ⟨o, 0⟩ ∧ o' = o) (fun cnt t o' hJ _ => ?_)
        (fun _ _ _ h _ => by rw [h.1, h.2]; exact fin _ _ _) _ _ _ _ ⟨rfl, rfl⟩
      obtain ⟨rfl, rfl⟩ := hJ
      refine (I q hc).imp fun r hr => ?_
      cases r with
      | ok ps o1 =>
        obtain ⟨rfl, rfl⟩ := hr
        refine (I s hc').imp fun r' hr' => ?_
        cases r' with
        | ok ss o2 =>
          obtain ⟨rfl, rfl⟩ := hr'
          refine ⟨fun t1 t2 h1 h2 => ?_, fun _ => trivial, fun _ _ _ => trivial⟩
          obtain rfl := A h1
          exact ⟨A h2, rfl⟩
        | err e o2 =>
          simp only [StuckAt] at hr'; subst hr'
          refine ⟨fun _ => ⟨fun t1 h1 => ?_, fun _ => trivial⟩, fun _ => fin _ _ _⟩
          obtain rfl := A h1
          exact fin _ _ _
        | panic => trivial
      | err e o'' => simp only [StuckAt] at hr; subst hr; exact fin _ _ _
      | panic => trivial
    -- a nested call that consumes nothing, followed by more
    have C : ∀ {q : Pat ι β} {kO : Span → Nat → Option (Res Span)} {kE : Error → Nat → Option (Res Span)},
        Child G q p → Sat (kO ⟨o, 0⟩ o) (StuckAt o) → (∀ e, Sat (kE e o) (StuckAt o)) →
        Sat (caseR (matWith (parse G n) pol d q o) kO kE) (StuckAt o) := by
      intro q kO kE hc hk he
      refine sat_caseR (I q hc) (fun a o1 h1 => ?_) (fun e o1 h1 => ?_) id
      · obtain ⟨rfl, rfl⟩ := h1; exact hk
      · simp only [StuckAt] at h1; subst h1; exact he _
    have D : ∀ {k : Span → Option (Res Span)}, Sat (k ⟨o, 0⟩) (StuckAt o) →
        Sat (addK ⟨o, 0⟩ ⟨o, 0⟩ k) (StuckAt o) := by
      intro k hk
      refine sat_addK (fun s hs => ?_) (fun _ => trivial)
      obtain rfl := A hs; exact hk
    have hnv : ∀ l, dropB d o ≠ some l := fun l hl => ho (valid_iff_dropB.mpr ⟨l, hl⟩)
    simp only [parse]
    cases p <;> simp only [step]
    case empty => exact K
    case fail => exact E _
    case start => exact sat_ite (fun h0 => absurd (h0 ▸ valid_zero d) ho) (fun _ => E _)
    case anchorEnd => exact sat_ite (fun h0 => absurd (h0 ▸ valid_len d) ho) (fun _ => E _)
    case consume k =>
      have hs := h.self
      simp only [Aligned] at hs
      rcases hs with rfl | hs
      · exact sat_remK (fun _ => sat_ite (fun _ => K) (fun _ => E _)) (fun _ => trivial)
      · exact absurd (valid_of_bytes hs hle) ho
    case consumeAll =>
      have hs := h.self
      exact absurd (valid_of_bytes hs hle) ho
    case lit => exact (leaf_lit _ _ _ True).imp fun _ => LeafPost.stuck ho
    case native f =>
      intro r hr
      have := h.self
      simp only [Aligned, Option.some.injEq] at this hr
      subst hr
      have := this d o ho
      revert this
      cases f d o with
      | ok s o' => exact id
      | err e o' => exact id
      | panic => exact id
    case once => exact (leaf_once _ _ _ _ _).imp fun _ => LeafPost.stuck ho
    case many1 => exact (leaf_many1 _ _ _ _ _).imp fun _ => LeafPost.stuck ho
    case optU => exact (leaf_optU _ _ _ _ _).imp fun _ => LeafPost.stuck ho
    case many0 => exact (leaf_many0 _ _ _ _ _).imp fun _ => LeafPost.stuck ho
    case between => exact (leaf_between _ _ _ _ _ _ _).imp fun _ => LeafPost.stuck ho
    case times => exact (leaf_times _ _ _ _ _ _).imp fun _ => LeafPost.stuck ho
    case thenU => exact (leaf_thenU _ _ _ _ _ _).imp fun _ => LeafPost.stuck ho
    case assert =>
      exact C rfl (sat_ite (fun _ => K) (fun _ => E _)) (fun _ => sat_ite (fun _ => E _) (fun _ => K))
    case thn => exact C (.inl rfl) (C (.inr rfl) (D K) fun _ => E _) fun _ => E _
    case pre => exact C (.inl rfl) (C (.inr rfl) (D K) fun _ => E _) fun _ => E _
    case suf => exact C (.inl rfl) (C (.inr rfl) (D K) fun _ => E _) fun _ => E _
    case ifThen =>
      exact C (.inl rfl) (C (.inr (.inl rfl)) (D (C (.inr (.inr rfl)) (D K) fun _ => E _)) fun _ => K)
        fun _ => E _
    case enclose =>
      exact C (.inl rfl) (C (.inr (.inl rfl)) (D (C (.inr (.inr rfl)) (D K) fun _ => E _)) fun _ => E _)
        fun _ => E _
    case sepOnce =>
      exact C (.inl rfl) (D (C (.inr (.inl rfl)) (D (C (.inr (.inr rfl)) (D K) fun _ => E _))
        fun _ => E _)) fun _ => E _
    case or => exact C (.inl rfl) K fun _ => C (.inr rfl) K fun _ => E _
    case longest =>
      exact C (.inl rfl) (C (.inr rfl) (sat_ite (fun _ => K) (fun _ => K)) fun _ => K)
        fun _ => C (.inr rfl) K fun _ => E _
    case opt => exact C rfl K fun _ => K
    case choice e items =>
      refine sat_choiceLoop items (fun it hit => (I _ ⟨it, hit, rfl⟩).imp fun r hr => ?_) rfl
      cases r
      · exact hr
      · trivial
      · trivial
    case ltm e items =>
      refine sat_ltmLoop (fun best o' => (∀ s, best = some s → s = ⟨o, 0⟩) ∧ o' = o) items ?_
        (fun s o' h => ⟨h.1 s rfl, h.2⟩) (fun o' h => h.2) none o ⟨fun _ h => by (cases h), rfl⟩
      intro it hit best o' hb r hr
      have := I it.1 ⟨it, hit, rfl⟩ r hr
      cases r with
      | ok s o'' =>
        obtain ⟨rfl, rfl⟩ := this
        refine ⟨fun s hs => ?_, rfl⟩
        unfold better at hs
        split at hs
        · exact (Option.some.inj hs).symm
        · exact hb.1 s hs
      | err e o'' => exact ⟨hb.1, this⟩
      | panic => trivial
    case rep => exact loopR _ _ _ _ rfl
    case rep2 => exact loopR _ _ _ _ rfl
    case collect => exact loopR _ _ _ _ rfl
    case sep => exact loopS _ _ _ _ _ _ (.inl rfl) (.inr rfl)
    case sep2 => exact loopS _ _ _ _ _ _ (.inl rfl) (.inr rfl)
    case sepCollect => exact loopS _ _ _ _ _ _ (.inl rfl) (.inr rfl)
    case branch =>
      refine sat_caseO (sat_true _) (fun t _ => C (q := if t then _ else _) ?_ K fun _ => E _)
        (fun _ _ => E _) id
      cases t
      · exact .inr rfl
      · exact .inl rfl
    case map => exact I _ rfl
    case pat => exact I _ rfl
    case build q f => exact absurd h.self id
    case dthen => exact Sat.some trivial
    case cell i =>
      split
      · exact E _
      · next q hq => exact ih q (h.child hq)

theorem stuck_inv (G : Rules ι β) (n : Nat) (d : List ι) (p : Pat ι β) (o : Nat) (ho : ¬ Valid d o)
    (hle : o ≤ blen d) (h : All G Aligned p) : Sat (parse G n none d p o) (StuckAt o) :=
  stuck_inv_in G none n d p o ho hle (fun _ _ h => by cases h) h

end Neure
