import Verif.PoisonRel
import Verif.PoisonSpec
import Verif.ImpRel
import Verif.LockLemmas
/-!
# What a thread does to mutexes that may be poisoned
-/

namespace Neure

set_option linter.unusedSectionVars false

variable {ι β σ α : Type} [Item ι] {G : Rules ι β} {H : Handler ι β σ} {rank : Nat → Nat}
  {X : Nat → Prop} [DecidablePred X]

/-! ## One level -/

theorem impStep_rules (G G' : Rules ι β) {n : Nat} {mt : List ι → Pat ι β → M σ (Except Error Span)}
    {pr : Pat ι β → M σ (Except Error Span)} {d : List ι} {p : Pat ι β} (hp : ∀ i, p ≠ .cell i) :
    impStep G n mt pr d p = impStep G' n mt pr d p := by
  cases p <;> first | rfl | exact absurd rfl (hp _)

theorem impConStep_rules (G G' : Rules ι β) {n : Nat} {mt : Pat ι β → M σ (Except Error Span)}
    {x : M σ (Except Error Span)} {cn : Pat ι β → M σ (Except Error (Val β))} {d : List ι} {p : Pat ι β}
    (hp : ∀ i, p ≠ .cell i) :
    impConStep G H n mt x cn d p = impConStep G' H n mt x cn d p := by
  cases p <;> first | rfl | exact absurd rfl (hp _)

theorem poisonParse_other (n : Nat) (pol : Option (Pat ι β)) (d : List ι) (p : Pat ι β)
    (hp : ∀ i, p ≠ .cell i) :
    poisonParse (σ := σ) G (n + 1) pol d p =
      impStep G n (impMat (poisonParse G n) pol) (poisonParse G n pol d) d p := by
  cases p <;> first | rfl | exact absurd rfl (hp _)

theorem poisonCon_other (n : Nat) (pol : Option (Pat ι β)) (d : List ι) (p : Pat ι β)
    (hp : ∀ i, p ≠ .cell i) :
    poisonCon G H (n + 1) pol d p = impConStep G (besides H) n (poisonMat G n pol d)
      (poisonMat G (n + 1) pol d p) (poisonCon G H n pol d) d p := by
  cases p <;> first | rfl | exact absurd rfl (hp _)

/-! ## The handles in `X` are poisoned: what comes out is what the rules say -/

/-- The two states belong together, and what is left of the list answers as `X`. -/
def Follow (X : Nat → Prop) (a : σ × List PEv) (b : σ) : Prop := a.1 = b ∧ Answered X a.2

theorem Answered.tail {e : PEv} {w : List PEv} (h : Answered X (e :: w)) : Answered X w :=
  ⟨fun i hi => h.1 i (List.mem_cons_of_mem _ hi), fun i hi => h.2 i (List.mem_cons_of_mem _ hi)⟩

theorem rel_scripted {i : Nat} {x : M (σ × List PEv) (Except Error α)} {y : M σ (Except Error α)}
    (h1 : X i → ∀ s o, y s o = some (.done (.error .mutex) s o))
    (h2 : ¬ X i → MRel (Follow X) x y) : MRel (Follow X) (scripted i x) y := by
  rintro ⟨s, l⟩ t o ⟨rfl, hA⟩
  simp only at hA
  rcases l with _ | ⟨⟨j⟩ | ⟨j⟩ | _ | _, l⟩
  · exact trivial
  · by_cases hj : j = i
    · subst hj
      have hX : ¬ X j := hA.2 j (by simp)
      have h := h2 hX (s, l) s o ⟨rfl, hA.tail⟩
      simp only [scripted, if_pos]
      rcases hx : x (s, l) o with _ | (⟨a, ⟨s', l'⟩, o'⟩ | _)
      · exact trivial
      · rw [hx] at h
        obtain ⟨t', e, h'⟩ := h
        rcases l' with _ | ⟨⟨k⟩ | ⟨k⟩ | ⟨k⟩ | _, l'⟩
        · exact trivial
        · exact trivial
        · exact trivial
        · simp only
          split
          · exact ⟨t', e, h'.1, h'.2.tail⟩
          · exact trivial
        · exact trivial
      · rw [hx] at h
        exact h
    · simp only [scripted, if_neg hj]
      exact trivial
  · by_cases hj : j = i
    · subst hj
      simp only [scripted, if_pos]
      exact ⟨s, h1 (hA.1 j (by simp)) s o, rfl, hA.tail⟩
    · simp only [scripted, if_neg hj]
      exact trivial
  · exact trivial
  · exact trivial

theorem rel_poisonParse (n : Nat) (pol : Option (Pat ι β)) (d : List ι) (p : Pat ι β) :
    MRel (Follow X) (poisonParse (σ := σ) G n pol d p)
      (liftR (parse (afterPoison X G) (n + 1) pol d p)) := by
  induction n generalizing pol d p with
  | zero => exact fun _ _ _ _ => trivial
  | succ n ih =>
    rcases isCell p with ⟨i, rfl⟩ | hc
    · refine rel_scripted (fun hX s o => ?_) (fun hX => ?_)
      · simp only [liftR, parse, step, afterPoison, if_pos hX]
        rfl
      · have h : liftR (σ := σ) (parse (afterPoison X G) (n + 2) pol d (.cell i)) =
            content G i fun q => liftR (parse (afterPoison X G) (n + 1) pol d q) := by
          funext s o
          simp only [liftR, parse, step, afterPoison, if_neg hX, content]
          cases G i <;> rfl
        rw [h]
        simp only [content]
        cases G i with
        | none => exact MRel.pure_ _
        | some q => exact ih _ _ _
    · rw [poisonParse_other _ _ _ _ hc, impStep_rules G (afterPoison X G) hc]
      have h : liftR (σ := σ) (parse (afterPoison X G) (n + 1 + 1) pol d p) = liftR (step (afterPoison X G)
          (n + 1) (matWith (parse (afterPoison X G) (n + 1)) pol) (parse (afterPoison X G) (n + 1) pol d) d p) := by
        rfl
      rw [h, ← imp_step]
      refine rel_step (fun d q => ?_) (by omega) (fun q => ih _ _ _) p
      rw [← imp_mat]
      exact rel_mat (fun pol d q => ih pol d q) pol d q

theorem rel_poisonMat (n : Nat) (pol : Option (Pat ι β)) (d : List ι) (p : Pat ι β) :
    MRel (Follow X) (poisonMat (σ := σ) G n pol d p)
      (liftR (tryMat (afterPoison X G) (n + 1) pol d p)) := by
  have h : liftR (σ := σ) (tryMat (afterPoison X G) (n + 1) pol d p) =
      impMat (fun pol d q => liftR (parse (afterPoison X G) (n + 1) pol d q)) pol d p := by
    rw [imp_mat]; rfl
  rw [h]
  exact rel_mat (fun pol d q => rel_poisonParse n pol d q) pol d p

theorem rel_poisonCon (n : Nat) (pol : Option (Pat ι β)) (d : List ι) (p : Pat ι β) :
    MRel (Follow X) (poisonCon G H n pol d p)
      (liftC (con (afterPoison X G) H (n + 1) pol d p)) := by
  induction n generalizing p with
  | zero => exact fun _ _ _ _ => trivial
  | succ n ih =>
    rcases isCell p with ⟨i, rfl⟩ | hc
    · refine rel_scripted (fun hX s o => ?_) (fun hX => ?_)
      · simp only [liftC, con, conStep, afterPoison, if_pos hX]
        rfl
      · have h : liftC (con (afterPoison X G) H (n + 2) pol d (.cell i)) =
            content G i fun q => liftC (con (afterPoison X G) H (n + 1) pol d q) := by
          funext s o
          simp only [liftC, con, conStep, afterPoison, if_neg hX, content]
          cases G i <;> rfl
        rw [h]
        simp only [content]
        cases G i with
        | none => exact MRel.pure_ _
        | some q => exact ih _
    · rw [poisonCon_other _ _ _ _ hc, impConStep_rules G (afterPoison X G) hc]
      have h : liftC (con (afterPoison X G) H (n + 1 + 1) pol d p) = liftC fun st o =>
          conStep (afterPoison X G) H (n + 1) (tryMat (afterPoison X G) (n + 1) pol d)
            (tryMat (afterPoison X G) (n + 2) pol d p o) (con (afterPoison X G) H (n + 1) pol d) d p st o := by
        rfl
      rw [h, ← imp_conStep]
      refine rel_conStep (fun o sp s t hs => ?_) (fun q => rel_poisonMat _ _ _ _) (rel_poisonMat _ _ _ _)
        (fun q => ih _) (by omega) p
      obtain ⟨rfl, hA⟩ := hs
      exact ⟨rfl, rfl, hA⟩

/-! ## What the rules say comes out, along some list -/

theorem answered_append {X : Nat → Prop} {u v : List PEv} : Answered X (u ++ v) ↔ Answered X u ∧ Answered X v := by
  constructor
  · intro h
    exact ⟨⟨fun i hi => h.1 i (by simp [hi]), fun i hi => h.2 i (by simp [hi])⟩,
      ⟨fun i hi => h.1 i (by simp [hi]), fun i hi => h.2 i (by simp [hi])⟩⟩
  · rintro ⟨h1, h2⟩
    refine ⟨fun i hi => ?_, fun i hi => ?_⟩
    · rcases List.mem_append.mp hi with h | h
      · exact h1.1 i h
      · exact h2.1 i h
    · rcases List.mem_append.mp hi with h | h
      · exact h1.2 i h
      · exact h2.2 i h

/-- Lists that answer as `X`. -/
def answers (X : Nat → Prop) : Form where
  Ok _ := Answered X
  nil _ := ⟨fun _ h => (by cases h), fun _ h => (by cases h)⟩
  app _ _ _ h1 h2 := answered_append.mpr ⟨h1, h2⟩

theorem obeys_scripted {i : Nat} {x : M (σ × List PEv) (Except Error α)} {y : M σ (Except Error α)}
    (h1 : X i → ∀ s o r, y s o = some r → r = .done (.error .mutex) s o)
    (h2 : ¬ X i → Obeys (answers X) x y) : Obeys (answers X) (scripted i x) y := by
  intro s o r hr
  by_cases hX : X i
  · cases h1 hX s o r hr
    refine ⟨[.bad i], uses_scripted_bad, ?_⟩
    show Answered X _
    exact ⟨fun j hj => by simp at hj; exact hj ▸ hX, fun j hj => by simp at hj⟩
  · obtain ⟨w, hu, hok⟩ := h2 hX s o r hr
    cases r with
    | panic =>
      refine ⟨_, uses_scripted_panic hu, ?_⟩
      show Answered X _
      have hok : Answered X w := hok
      refine ⟨fun j hj => hok.1 j (by simpa using hj), fun j hj => ?_⟩
      rcases List.mem_cons.mp hj with h | h
      · cases h; exact hX
      · exact hok.2 j h
    | done a s' o' =>
      refine ⟨_, uses_scripted_done hu, ?_⟩
      show Answered X _
      have hok : Answered X w := hok
      refine ⟨fun j hj => hok.1 j (by simpa using hj), fun j hj => ?_⟩
      rcases List.mem_cons.mp hj with h | h
      · cases h; exact hX
      · exact hok.2 j (by simpa using h)

theorem obeys_pure {Y : Form} (a : α) : Obeys Y (pure a : M (σ × List PEv) α) (pure a) :=
  (obeyCong Y).pure_ a

theorem obeys_mat {Y : Form} {pr : Option (Pat ι β) → List ι → Pat ι β → M (σ × List PEv) (Except Error Span)}
    {pr' : Option (Pat ι β) → List ι → Pat ι β → M σ (Except Error Span)} (pol : Option (Pat ι β))
    (d : List ι) (p : Pat ι β) (h : ∀ pol d q, Obeys Y (pr pol d q) (pr' pol d q)) :
    Obeys Y (impMat pr pol d p) (impMat pr' pol d p) := by
  cases pol with
  | none => exact h _ _ _
  | some s =>
    refine obeys_bind (h _ _ _) fun r => ?_
    cases r
    · exact obeys_pure _
    · exact h _ _ _

theorem obeys_handlers {Y : Form} : (obeyCong Y).Handlers (besides H) H := by
  intro d m m' h
  refine obeys_bind h fun r => ?_
  cases r with
  | error e => exact obeys_pure _
  | ok s =>
    refine obeys_const fun st o => ?_
    simp only [besides]
    rcases H d o s st with ⟨_ | _ | _, st'⟩ <;> exact ⟨_, rfl, fun _ => rfl⟩

theorem obeys_poisonParse (n : Nat) (pol : Option (Pat ι β)) (d : List ι) (p : Pat ι β) :
    Obeys (σ := σ) (answers X) (poisonParse G n pol d p)
      (liftR (parse (afterPoison X G) n pol d p)) := by
  induction n generalizing pol d p with
  | zero => exact fun _ _ _ h => by cases h
  | succ n ih =>
    rcases isCell p with ⟨i, rfl⟩ | hc
    · refine obeys_scripted (fun hX s o r hr => ?_) (fun hX => ?_)
      · simp only [liftR, parse, step, afterPoison, if_pos hX] at hr
        cases n with
        | zero => cases hr
        | succ n => exact (Option.some.inj hr).symm
      · have h : liftR (σ := σ) (parse (afterPoison X G) (n + 1) pol d (.cell i)) =
            content G i fun q => liftR (parse (afterPoison X G) n pol d q) := by
          funext s o
          simp only [liftR, parse, step, afterPoison, if_neg hX, content]
          cases G i <;> rfl
        rw [h]
        simp only [content]
        cases G i with
        | none => exact obeys_pure _
        | some q => exact ih _ _ _
    · rw [poisonParse_other _ _ _ _ hc, impStep_rules G (afterPoison X G) hc]
      have h : liftR (σ := σ) (parse (afterPoison X G) (n + 1) pol d p) = liftR (step (afterPoison X G)
          n (matWith (parse (afterPoison X G) n) pol) (parse (afterPoison X G) n pol d) d p) := by
        rfl
      rw [h, ← imp_step]
      refine crel_impStep (C := obeyCong (answers X)) _ n d p hc fun d q _ => ?_
      rw [← imp_mat]
      exact obeys_mat _ _ _ fun pol d q => ih pol d q

theorem obeys_poisonMat (n : Nat) (pol : Option (Pat ι β)) (d : List ι) (p : Pat ι β) :
    Obeys (σ := σ) (answers X) (poisonMat G n pol d p)
      (liftR (tryMat (afterPoison X G) n pol d p)) := by
  have h : liftR (σ := σ) (tryMat (afterPoison X G) n pol d p) =
      impMat (fun pol d q => liftR (parse (afterPoison X G) n pol d q)) pol d p := by
    rw [imp_mat]; rfl
  rw [h]
  exact obeys_mat _ _ _ fun pol d q => obeys_poisonParse n pol d q

theorem obeys_poisonCon (n : Nat) (pol : Option (Pat ι β)) (d : List ι) (p : Pat ι β) :
    Obeys (answers X) (poisonCon G H n pol d p) (liftC (con (afterPoison X G) H n pol d p)) := by
  induction n generalizing p with
  | zero => exact fun _ _ _ h => by cases h
  | succ n ih =>
    rcases isCell p with ⟨i, rfl⟩ | hc
    · refine obeys_scripted (fun hX s o r hr => ?_) (fun hX => ?_)
      · simp only [liftC, con, conStep, afterPoison, if_pos hX] at hr
        cases n with
        | zero => cases hr
        | succ n => exact (Option.some.inj hr).symm
      · have h : liftC (con (afterPoison X G) H (n + 1) pol d (.cell i)) =
            content G i fun q => liftC (con (afterPoison X G) H n pol d q) := by
          funext s o
          simp only [liftC, con, conStep, afterPoison, if_neg hX, content]
          cases G i <;> rfl
        rw [h]
        simp only [content]
        cases G i with
        | none => exact obeys_pure _
        | some q => exact ih _
    · rw [poisonCon_other _ _ _ _ hc, impConStep_rules G (afterPoison X G) hc]
      have h : liftC (con (afterPoison X G) H (n + 1) pol d p) = liftC fun st o =>
          conStep (afterPoison X G) H n (tryMat (afterPoison X G) n pol d)
            (tryMat (afterPoison X G) (n + 1) pol d p o) (con (afterPoison X G) H n pol d) d p st o := by
        rfl
      rw [h, ← imp_conStep]
      exact crel_impConStep (C := obeyCong (answers X)) _ obeys_handlers n d p hc
        (obeys_poisonMat _ _ _ _) (fun q _ => obeys_poisonMat _ _ _ _) (fun q _ => ih _)

/-! ## What is used up -/

theorem tame_mat {Y : Form} {pr : Option (Pat ι β) → List ι → Pat ι β → M (σ × List PEv) (Except Error Span)}
    {pol : Option (Pat ι β)} {d : List ι} {p : Pat ι β} (hs : ∀ s, pol = some s → Tame Y (pr none d s))
    (hp : Tame Y (pr pol d p)) : Tame Y (impMat pr pol d p) := by
  cases pol with
  | none => exact hp
  | some s =>
    refine tame_bind (hs s rfl) fun r => ?_
    cases r
    · exact (tameCong Y).pure_ _
    · exact hp

theorem tame_handlers {Y : Form} : (tameCong Y).Handlers (besides H) (fun _ _ _ _ => (.panic, ())) := by
  intro d m m' h
  refine tame_bind h fun r => ?_
  cases r with
  | error e => exact (tameCong Y).pure_ _
  | ok s =>
    refine tame_const fun st o => ?_
    simp only [besides]
    rcases H d o s st with ⟨b | e | _, st'⟩
    · exact ⟨.done (.ok (.base b)) st' o, fun _ => rfl⟩
    · exact ⟨.done (.error e) st' o, fun _ => rfl⟩
    · exact ⟨.panic, fun _ => rfl⟩

/-- Tameness level by level.  `Good Y p pol`: what has to be known about pattern and
policy for `Y`. -/
theorem tame_poison {Good : Form → Option (Pat ι β) → Pat ι β → Prop}
    (hchild : ∀ {Y pol p q}, (∀ i, p ≠ .cell i) → Good Y pol p → Child (fun _ => none) q p → Good Y pol q)
    (hpol : ∀ {Y s p}, Good Y (some s) p → Good Y none s)
    (hbad : ∀ {Y : Form} {pol i}, Good Y pol (.cell i) → Y.Ok false [.bad i])
    (hcell : ∀ {Y : Form} {pol i}, Good Y pol (.cell i) → ∃ Z : Form,
      (∀ w, Z.Ok false w → Y.Ok false (.acq i :: (w ++ [.rel i]))) ∧
      (∀ w, Z.Ok true w → Y.Ok true (.acq i :: w)) ∧ ∀ q, G i = some q → Good Z pol q) :
    (∀ n Y pol d p, Good Y pol p → Tame (σ := σ) Y (poisonParse G n pol d p)) ∧
    (∀ n Y pol d p, Good Y pol p → Tame (σ := σ) Y (poisonMat G n pol d p)) ∧
    (∀ n Y pol d p, Good Y pol p → Tame Y (poisonCon G H n pol d p)) := by
  have hparse : ∀ n Y pol d p, Good Y pol p → Tame (σ := σ) Y (poisonParse G n pol d p) := by
    intro n
    induction n with
    | zero => exact fun _ _ _ _ _ => fun _ _ _ h => absurd rfl h
    | succ n ih =>
      intro Y pol d p hg
      rcases isCell p with ⟨i, rfl⟩ | hc
      · obtain ⟨Z, h1, h2, h3⟩ := hcell hg
        refine tame_scripted (Z := Z) (hbad hg) h1 h2 ?_
        simp only [content]
        cases hi : G i with
        | none => exact (tameCong Z).pure_ _
        | some q => exact ih _ _ _ _ (h3 q hi)
      · rw [poisonParse_other _ _ _ _ hc]
        refine crel_impStep (C := tameCong Y) (mt' := fun _ _ _ _ => none) (pr' := fun _ _ _ => none)
          _ n d p hc fun d q hq => ?_
        exact tame_mat (fun s hs => ih _ _ _ _ (hpol (hs ▸ hg))) (ih _ _ _ _ (hchild hc hg hq))
  have hmat : ∀ n Y pol d p, Good Y pol p → Tame (σ := σ) Y (poisonMat G n pol d p) :=
    fun n Y pol d p hg => tame_mat (fun s hs => hparse _ _ _ _ _ (hpol (hs ▸ hg))) (hparse _ _ _ _ _ hg)
  refine ⟨hparse, hmat, fun n => ?_⟩
  induction n with
  | zero => exact fun _ _ _ _ _ => fun _ _ _ h => absurd rfl h
  | succ n ih =>
    intro Y pol d p hg
    rcases isCell p with ⟨i, rfl⟩ | hc
    · obtain ⟨Z, h1, h2, h3⟩ := hcell hg
      refine tame_scripted (Z := Z) (hbad hg) h1 h2 ?_
      simp only [content]
      cases hi : G i with
      | none => exact (tameCong Z).pure_ _
      | some q => exact ih _ _ _ _ (h3 q hi)
    · rw [poisonCon_other _ _ _ _ hc]
      exact crel_impConStep (C := tameCong Y) (mt' := fun _ _ _ => none) (leaf' := fun _ _ => none)
        (cn' := fun _ _ _ => none) _ tame_handlers n d p hc
        (hmat _ _ _ _ _ hg) (fun q hq => hmat _ _ _ _ _ (hchild hc hg hq)) (fun q hq => ih _ _ _ _ (hchild hc hg hq))

end Neure
