import Verif.SettledLemmas
import Verif.RewriteLemmas
import Verif.CoreInv
import Verif.PropsUnit
/-!
# A text with a terminator is settled (C88)

The specification `StopsAt` and the lemmas: matching never gets past an item that no unit
accepts and no literal contains, so it never asks where the text ends.
-/

namespace Neure

set_option linter.unusedSectionVars false
set_option linter.unusedSimpArgs false

variable {ι β σ : Type} [Item ι] {G : Rules ι β} {pol : Option (Pat ι β)} {d : List ι}

/-- A condition that is a pattern, or none. -/
def Cond.Plain : Cond ι β → Prop
  | .fn _ => False
  | _ => True

/-- `p` itself cannot get past the item `z`: no unit accepts it, no literal contains it, bytes are
not counted, and there are no closures.  `between`, `times` and `then` of units look at the length
of the text first, so they have no condition here, and a minimum length that is right. -/
def StopsAt (G : Rules ι β) (pol : Option (Pat ι β)) (z : ι) : Pat ι β → Prop
  | .consume _ | .consumeAll | .native _ | .branch _ _ _ | .build _ _ => False
  | .lit l => z ∉ l
  | .once u c | .optU u c | .many0 u c | .many1 u c => u.isMatch z = false ∧ c.Plain
  | .between _ _ u c | .times _ u c => u.isMatch z = false ∧ u.Fair ∧ c = .empty
  | .thenU u v c => u.isMatch z = false ∧ v.isMatch z = false ∧ u.Fair ∧ v.Fair ∧ c = .empty
  | .longest a b => pol = none ∧ All G Tidy a ∧ All G Tidy b
  | _ => True

/-! ## Combinators -/

theorem sameItems_self {R : Pat ι β → Pat ι β → Prop} (l : List (Pat ι β × Option (Val β)))
    (h : ∀ it ∈ l, R it.1 it.1) : SameItems R l l := by
  induction l with
  | nil => exact .nil
  | cons a tl ih => exact .cons a.2 (h a List.mem_cons_self) (ih fun it hit => h it (List.mem_cons_of_mem _ hit))

theorem sameShape_children {R : Pat ι β → Pat ι β → Prop} {p : Pat ι β} (h : ∀ q, Child G q p → R q q) :
    SameShape G G R p p := by
  have hc : ∀ c : Cond ι β, (∀ q, c.Has q → R q q) → SameCond R c c := by
    intro c hc
    cases c with
    | empty => exact .empty
    | fn f => exact .fn f
    | regex q => exact .regex (hc q rfl)
  have hbt : ∀ r : Res (Pat ι β), (∀ q o, r = .ok q o → R q q) → SameBuilt R r r := by
    intro r hr
    cases r with
    | ok q o => exact .ok o (hr q o rfl)
    | err e o => exact .err e o
    | panic => exact .panic
  cases p with
  | empty => exact .empty
  | fail => exact .fail
  | start => exact .start
  | anchorEnd => exact .anchorEnd
  | consume n => exact .consume n
  | consumeAll => exact .consumeAll
  | lit l => exact .lit l
  | native f => exact .native f
  | once u c => exact .once u (hc c h)
  | many1 u c => exact .many1 u (hc c h)
  | optU u c => exact .optU u (hc c h)
  | many0 u c => exact .many0 u (hc c h)
  | between m n u c => exact .between m n u (hc c h)
  | times r u c => exact .times r u (hc c h)
  | thenU u v c => exact .thenU u v (hc c h)
  | assert p v => exact .assert v (h _ rfl)
  | thn a b => exact .thn (h _ (.inl rfl)) (h _ (.inr rfl))
  | ifThen a t b => exact .ifThen (h _ (.inl rfl)) (h _ (.inr (.inl rfl))) (h _ (.inr (.inr rfl)))
  | pre a b => exact .pre (h _ (.inl rfl)) (h _ (.inr rfl))
  | suf a b => exact .suf (h _ (.inl rfl)) (h _ (.inr rfl))
  | enclose a b c => exact .enclose (h _ (.inl rfl)) (h _ (.inr (.inl rfl))) (h _ (.inr (.inr rfl)))
  | sepOnce a b c => exact .sepOnce (h _ (.inl rfl)) (h _ (.inr (.inl rfl))) (h _ (.inr (.inr rfl)))
  | or a b => exact .or (h _ (.inl rfl)) (h _ (.inr rfl))
  | longest a b => exact .longest (h _ (.inl rfl)) (h _ (.inr rfl))
  | opt p => exact .opt (h _ rfl)
  | choice e l => exact .choice e (sameItems_self l fun it hit => h _ ⟨it, hit, rfl⟩)
  | ltm e l => exact .ltm e (sameItems_self l fun it hit => h _ ⟨it, hit, rfl⟩)
  | rep p r => exact .rep r (h _ rfl)
  | rep2 p m n => exact .rep2 m n (h _ rfl)
  | collect p m => exact .collect m (h _ rfl)
  | sep p s k m => exact .sep k m (h _ (.inl rfl)) (h _ (.inr rfl))
  | sep2 p s k m n => exact .sep2 k m n (h _ (.inl rfl)) (h _ (.inr rfl))
  | sepCollect p s k m => exact .sepCollect k m (h _ (.inl rfl)) (h _ (.inr rfl))
  | branch t a b => exact .branch t (h _ (.inl rfl)) (h _ (.inr rfl))
  | map p f => exact .map f (h _ rfl)
  | pat p => exact .pat (h _ rfl)
  | build p f => exact .build (h _ (.inl rfl)) fun d o s => hbt _ fun q o' e => h _ (.inr ⟨d, o, s, o', e⟩)
  | dthen p f => exact .dthen (h _ (.inl rfl)) fun d o v => hbt _ fun q o' e => h _ (.inr ⟨d, o, v, o', e⟩)
  | cell i =>
    cases hi : G i with
    | none => exact .unset hi hi
    | some q => exact .cell hi hi (h _ hi)

/-- Patterns that only combine other patterns. -/
def Combines : Pat ι β → Prop
  | .anchorEnd | .consume _ | .consumeAll | .lit _ | .native _ | .once _ _ | .many1 _ _ | .optU _ _ | .many0 _ _
  | .between _ _ _ _ | .times _ _ _ | .thenU _ _ _ | .branch _ _ _ | .build _ _ | .dthen _ _ => False
  | _ => True

theorem finish_in {K : Nat → Prop} {ok : Nat → Bool} {e : Error} {beg cnt : Nat} {t : Span} {o : Nat}
    (hb : K beg) (h : K o) : Sat (finish ok e beg cnt t o) (InR K) := by
  unfold finish; split
  · exact Sat.some h
  · exact Sat.some hb

/-- A combinator leaves a position that one of its parts left, or its own. -/
theorem combine_in {K : Nat → Prop} {mt : Pat ι β → Nat → Option (Res Span)} {pr : Pat ι β → Nat → Option (Res Span)}
    {n : Nat} {p : Pat ι β} {o : Nat} (hcm : Combines p) (ho : K o)
    (I : ∀ q o, Child G q p → K o → Sat (mt q o) (InR K))
    (hpr : ∀ q o, Child G q p → K o → Sat (pr q o) (InR K))
    (hl : ∀ a b, p = .longest a b → ∀ q s o', Child G q p → mt q o = some (.ok s o') → o' = o + s.len) :
    Sat (step G n (fun _ => mt) pr [] p o) (InR K) := by
  have E : ∀ (e : Error), Sat (some (Res.err e o : Res Span)) (InR K) := fun e => Sat.some ho
  have K0 : Sat (some (Res.ok (⟨o, 0⟩ : Span) o)) (InR K) := Sat.some ho
  have P : InR (α := Span) K .panic → InR (α := Span) K .panic := id
  have loopR : ∀ (q : Pat ι β) (more : Nat → Bool) (ok : Nat → Bool) (e : Error), Child G q p →
      Sat (repLoop mt q more (finish ok e o) n 0 ⟨o, 0⟩ o) (InR K) := by
    intro q more ok e hc
    refine sat_repLoop (fun _ _ o' => K o') (fun cnt t o' hJ _ => ?_) (fun _ _ _ h _ => finish_in ho h) _ _ _ _ ho
    refine (I q o' hc hJ).imp fun r hr => ?_
    cases r with
    | ok s o'' => exact ⟨fun _ _ => hr, fun _ => trivial⟩
    | err e o'' => exact finish_in ho hr
    | panic => exact hr
  have loopS : ∀ (q s : Pat ι β) (skip : Bool) (more : Nat → Bool) (ok : Nat → Bool) (e : Error),
      Child G q p → Child G s p → Sat (sepLoop mt q s skip more (finish ok e o) n 0 ⟨o, 0⟩ o) (InR K) := by
    intro q s skip more ok e hc hc'
    refine sat_sepLoop (fun _ _ o' => K o') (fun cnt t o' hJ _ => ?_) (fun _ _ _ h _ => finish_in ho h) _ _ _ _ ho
    refine (I q o' hc hJ).imp fun r hr => ?_
    cases r with
    | ok ps o1 =>
      refine (I s o1 hc' hr).imp fun r' hr' => ?_
      cases r' with
      | ok ss o2 => exact ⟨fun _ _ _ _ => hr', fun _ => trivial, fun _ _ _ => trivial⟩
      | err e o2 => exact ⟨fun _ => ⟨fun _ _ => finish_in ho hr', fun _ => trivial⟩, fun _ => finish_in ho hr'⟩
      | panic => exact hr'
    | err e o'' => exact finish_in ho hr
    | panic => exact hr
  have two : ∀ a b, Child G a p → Child G b p →
      Sat (caseR (mt a o) (fun s1 o1 => caseR (mt b o1) (fun s2 o2 => addK s1 s2 fun s => some (.ok s o2))
          (fun e _ => some (.err e o))) (fun e _ => some (.err e o))) (InR K) := by
    intro a b ha hb
    exact sat_caseR (I _ _ ha ho) (fun _ o1 h1 => sat_caseR (I _ o1 hb h1)
      (fun _ _ h2 => sat_addK (fun _ _ => Sat.some h2) (fun _ => trivial)) (fun _ _ _ => E _) P) (fun _ _ _ => E _) P
  cases p <;> simp only [step]
  case empty => exact K0
  case fail => exact E _
  case start => exact sat_ite (fun _ => K0) (fun _ => E _)
  case anchorEnd => exact hcm.elim
  case consume => exact hcm.elim
  case consumeAll => exact hcm.elim
  case lit => exact hcm.elim
  case native => exact hcm.elim
  case once => exact hcm.elim
  case many1 => exact hcm.elim
  case optU => exact hcm.elim
  case many0 => exact hcm.elim
  case between => exact hcm.elim
  case times => exact hcm.elim
  case thenU => exact hcm.elim
  case branch => exact hcm.elim
  case build => exact hcm.elim
  case assert =>
    exact sat_caseR (I _ _ rfl ho) (fun _ _ _ => sat_ite (fun _ => K0) (fun _ => E _))
      (fun _ _ _ => sat_ite (fun _ => E _) (fun _ => K0)) P
  case thn => exact two _ _ (.inl rfl) (.inr rfl)
  case pre => exact two _ _ (.inl rfl) (.inr rfl)
  case suf => exact two _ _ (.inl rfl) (.inr rfl)
  case ifThen =>
    exact sat_caseR (I _ _ (.inl rfl) ho) (fun s1 o1 h1 => sat_caseR (I _ o1 (.inr (.inl rfl)) h1)
      (fun _ o2 h2 => sat_addK (fun _ _ => sat_caseR (I _ o2 (.inr (.inr rfl)) h2)
        (fun _ _ h3 => sat_addK (fun _ _ => Sat.some h3) (fun _ => trivial)) (fun _ _ _ => E _) P) (fun _ => trivial))
      (fun _ _ _ => Sat.some h1) P) (fun _ _ _ => E _) P
  case enclose =>
    exact sat_caseR (I _ _ (.inl rfl) ho) (fun s1 o1 h1 => sat_caseR (I _ o1 (.inr (.inl rfl)) h1)
      (fun _ o2 h2 => sat_addK (fun _ _ => sat_caseR (I _ o2 (.inr (.inr rfl)) h2)
        (fun _ _ h3 => sat_addK (fun _ _ => Sat.some h3) (fun _ => trivial)) (fun _ _ _ => E _) P) (fun _ => trivial))
      (fun _ _ _ => E _) P) (fun _ _ _ => E _) P
  case sepOnce =>
    exact sat_caseR (I _ _ (.inl rfl) ho) (fun s1 o1 h1 => sat_addK (fun _ _ => sat_caseR (I _ o1 (.inr (.inl rfl)) h1)
      (fun _ o2 h2 => sat_addK (fun _ _ => sat_caseR (I _ o2 (.inr (.inr rfl)) h2)
        (fun _ _ h3 => sat_addK (fun _ _ => Sat.some h3) (fun _ => trivial)) (fun _ _ _ => E _) P) (fun _ => trivial))
      (fun _ _ _ => E _) P) (fun _ => trivial)) (fun _ _ _ => E _) P
  case or =>
    exact sat_caseR (I _ _ (.inl rfl) ho) (fun _ _ h1 => Sat.some h1) (fun _ _ _ =>
      sat_caseR (I _ _ (.inr rfl) ho) (fun _ _ h2 => Sat.some h2) (fun _ _ _ => E _) P) P
  case longest a b =>
    have both : ∀ q, Child G q (.longest a b) → Sat (mt q o) (fun r => InR K r ∧ ∀ s o', r = .ok s o' → o' = o + s.len) :=
      fun q hc r hr => ⟨I q o hc ho r hr, fun s o' e => hl a b rfl q s o' hc (by rw [hr, e])⟩
    have L : ∀ (s : Span) o', (InR (α := Span) K (.ok s o') ∧ ∀ s1 o1, (Res.ok s o' : Res Span) = .ok s1 o1 → o1 = o + s1.len) →
        Sat (some (.ok s (o + s.len))) (InR K) := by
      intro s o' hs
      have := hs.2 s o' rfl
      exact Sat.some (show K (o + s.len) by rw [← this]; exact hs.1)
    exact sat_caseR (both _ (.inl rfl)) (fun _ _ h1 => sat_caseR (both _ (.inr rfl))
      (fun _ _ h2 => sat_ite (fun _ => L _ _ h1) (fun _ => L _ _ h2)) (fun _ _ _ => L _ _ h1)
      (fun h => h.1)) (fun _ _ _ => sat_caseR (both _ (.inr rfl)) (fun _ _ h2 => L _ _ h2)
      (fun _ _ _ => E _) (fun h => h.1)) (fun h => h.1)
  case opt => exact sat_caseR (I _ _ rfl ho) (fun _ _ h1 => Sat.some h1) (fun _ _ _ => K0) P
  case choice e items =>
    refine sat_choiceLoop items (fun it hit => (I _ _ ⟨it, hit, rfl⟩ ho).imp fun r hr => ?_) ho
    cases r
    · exact hr
    · trivial
    · exact hr
  case ltm e items =>
    refine sat_ltmLoop (fun _ o' => K o') items ?_ (fun s o' hR => hR) (fun o' hR => hR) none o ho
    intro it hit best o' hR
    refine (I _ _ ⟨it, hit, rfl⟩ ho).imp fun r hr => ?_
    cases r with
    | ok s o'' => exact hr
    | err e o'' => exact hr
    | panic => trivial
  case rep => exact loopR _ _ _ _ rfl
  case rep2 => exact loopR _ _ _ _ rfl
  case collect => exact loopR _ _ _ _ rfl
  case sep => exact loopS _ _ _ _ _ _ (.inl rfl) (.inr rfl)
  case sep2 => exact loopS _ _ _ _ _ _ (.inl rfl) (.inr rfl)
  case sepCollect => exact loopS _ _ _ _ _ _ (.inl rfl) (.inr rfl)
  case map => exact I _ _ rfl ho
  case pat => exact I _ _ rfl ho
  case dthen => exact hcm.elim
  case cell i =>
    split
    · exact E _
    · next q hq => exact hpr q o hq ho

/-! ## Primitives -/

theorem prefix_inside {run post y : List ι} {z : ι} (h : run <+: post ++ z :: y) (hz : z ∉ run) : run <+: post := by
  rcases List.prefix_or_prefix_of_prefix h (List.prefix_append post (z :: y)) with h1 | h1
  · exact h1
  · obtain ⟨t, rfl⟩ := h1
    obtain ⟨t', h⟩ := h
    rw [List.append_assoc, List.append_cancel_left_eq] at h
    cases t with
    | nil => simp
    | cons a t => simp only [List.cons_append, List.cons.injEq] at h; exact absurd (by simp [h.1]) hz

theorem inside_run {d0 y pre run rest : List ι} {z : ι} {o : Nat} (hd : d0 ++ z :: y = pre ++ run ++ rest) (ho : blen pre = o)
    (hv : Valid d0 o) (hz : z ∉ run) : Valid d0 (o + blen run) := by
  obtain ⟨pre', post, rfl, hb⟩ := hv
  have h1 : dropB (pre' ++ post ++ z :: y) o = some (post ++ z :: y) := by
    rw [List.append_assoc, ← hb]; exact dropB_append _ _
  have h2 : dropB (pre' ++ post ++ z :: y) o = some (run ++ rest) := by
    rw [hd, List.append_assoc, ← ho]; exact dropB_append _ _
  have h3 := Option.some.inj (h1.symm.trans h2)
  obtain ⟨t, rfl⟩ := prefix_inside ⟨rest, h3.symm⟩ hz
  exact ⟨pre' ++ run, t, by simp, by simp [hb]⟩

theorem accepted_avoids {o : Nat} {u : Neu ι} {c : Cond ι β} {A : Nat → Prop} {run : List ι} {z : ι}
    (h : AcceptedRun G pol d o u c A run) (hz : u.isMatch z = false) : z ∉ run := by
  intro hm
  obtain ⟨a, b, rfl⟩ := List.append_of_mem hm
  rcases (h a z b rfl).2 with ⟨h1, _⟩ | ⟨_, h1⟩
  · rw [hz] at h1; cases h1
  · cases h1

theorem gives_avoids {o i : Nat} {u : Neu ι} {c : Cond ι β} {x z : ι}
    (h : ItemGives G pol d o u c i x (.ok true)) (hz : u.isMatch z = false) : z ≠ x := by
  rintro rfl
  rcases h with ⟨h1, _⟩ | ⟨_, h1⟩
  · rw [hz] at h1; cases h1
  · cases h1

theorem leaf_inside {d0 y : List ι} {z : ι} {o : Nat} {tp : Prop} {r : Res Span} (hv : Valid d0 o)
    (h : LeafPost (d0 ++ z :: y) o tp r)
    (hok : ∀ s o', r = .ok s o' → ∃ pre run rest, d0 ++ z :: y = pre ++ run ++ rest ∧ blen pre = o ∧ z ∉ run ∧ o' = o + blen run) :
    InR (Valid d0) r := by
  cases r with
  | ok s o' =>
    obtain ⟨pre, run, rest, h1, h2, h3, rfl⟩ := hok s o' rfl
    exact inside_run h1 h2 hv h3
  | err e o' => simp only [LeafPost] at h; subst h; exact hv
  | panic => trivial

theorem greedy_inside {d0 y : List ι} {z : ι} {o : Nat} {u : Neu ι} {c : Cond ι β} {A : Nat → Prop} {run rest : List ι} {o' : Nat}
    (hg : GreedyRun G pol (d0 ++ z :: y) o u c A run rest) (hz : u.isMatch z = false) (ho : o' = o + blen run) :
    ∃ pre run rest, d0 ++ z :: y = pre ++ run ++ rest ∧ blen pre = o ∧ z ∉ run ∧ o' = o + blen run := by
  obtain ⟨⟨pre, h1, h2⟩, h3, _⟩ := hg
  exact ⟨pre, run, rest, h1, h2, accepted_avoids h3 hz, ho⟩

/-- Up to `z`, the scan makes the same tests; it ends there at the latest. -/
theorem scan_upto {test test' : Nat × ι → Option (Out Bool)} {more : Nat → Bool} {z : ι} {y : List ι} (l : List ι) :
    ∀ (k cnt : Nat) (beg : Option Nat), (∀ pr ∈ indices k l, Le (test pr) (test' pr)) →
    test (k + blen l, z) = some (.ok false) → test' (k + blen l, z) = some (.ok false) →
    ∀ w, scan test more cnt beg (indices k (l ++ z :: y)) = some w →
      scan test' more cnt beg (indices k (l ++ z :: y)) = some w ∧ ∀ s, w = .ok s → s.Ended more := by
  induction l with
  | nil =>
    intro k cnt beg _ h1 h2 w hw
    simp only [List.nil_append, indices, blen_nil, Nat.add_zero] at h1 h2 hw ⊢
    rw [scan, h1] at hw
    rw [scan, h2]
    refine ⟨hw, fun s hs => ?_⟩
    subst hs
    split at hw
    · cases hw; exact .inl (by simp)
    · next hm => cases hw; exact .inr (by simpa using hm)
  | cons a l ih =>
    intro k cnt beg hle h1 h2 w hw
    simp only [List.cons_append, indices] at hw hle ⊢
    rw [scan] at hw ⊢
    by_cases hm : more cnt = true
    · rw [if_pos hm] at hw ⊢
      cases ht : test (k, a) with
      | none => rw [ht] at hw; cases hw
      | some b =>
        have ht' := hle (k, a) List.mem_cons_self b ht
        rw [ht] at hw; rw [ht']
        have e : k + blen (a :: l) = k + Item.size a + blen l := by simp; omega
        match b, hw with
        | .ok true, hw =>
          exact ih (k + Item.size a) _ _ (fun pr hpr => hle pr (List.mem_cons_of_mem _ hpr)) (by rw [← e]; exact h1)
            (by rw [← e]; exact h2) w hw
        | .ok false, hw => exact ⟨hw, fun s hs => by subst hs; cases hw; exact .inl (by simp)⟩
        | .err e, hw => exact ⟨hw, fun s hs => by subst hs; cases hw⟩
        | .panic, hw => exact ⟨hw, fun s hs => by subst hs; cases hw⟩
    · rw [if_neg hm] at hw ⊢
      exact ⟨hw, fun s hs => by subst hs; cases hw; exact .inr (by simpa using hm)⟩

theorem scan_fair (mt : List ι → Pat ι β → Nat → Option (Res Span)) (o : Nat) (u : Neu ι) (hf : u.Fair)
    (more : Nat → Bool) (rest : List ι) : ∀ k cnt beg, ∃ s, scan (testItem mt d o u (.empty : Cond ι β)) more cnt beg
        (indices k rest) = some (.ok s) ∧ ((∃ y ∈ rest, u.isMatch y = false) → s.Ended more) ∧
      s.cnt * u.minLength ≤ cnt * u.minLength + blen rest := by
  induction rest with
  | nil => intro k cnt beg; exact ⟨_, rfl, by simp, by simp⟩
  | cons a tl ih =>
    intro k cnt beg
    rw [indices, scan]
    by_cases hm : more cnt = true
    · rw [if_pos hm]
      cases ha : u.isMatch a with
      | true =>
        simp only [testItem, ha, check, if_true]
        obtain ⟨s, h1, h3, h2⟩ := ih (k + Item.size a) (cnt + 1) (beg.or (some k))
        refine ⟨s, h1, fun ⟨y, hy, hn⟩ => h3 ⟨y, ?_, hn⟩, ?_⟩
        · rcases List.mem_cons.mp hy with rfl | h
          · rw [ha] at hn; cases hn
          · exact h
        · have := hf a ha
          rw [Nat.succ_mul] at h2
          simp only [blen_cons]; omega
      | false =>
        simp only [testItem, ha]
        exact ⟨_, rfl, fun _ => .inl (by simp), by simp⟩
    · rw [if_neg hm]
      exact ⟨_, rfl, fun _ => .inr (Bool.eq_false_iff.mpr hm), by simp⟩

theorem needed_le_count {r : CRange} {k m : Nat} (h : r.contains k = true) : r.needed m ≤ k * m := by
  have h := (contains_iff.mp h).1
  unfold CRange.needed
  unfold Bound.allowsFrom at h
  split
  · next a ha => rw [ha] at h; exact Nat.mul_le_mul_right _ h
  · next a ha => rw [ha] at h; exact Nat.mul_le_mul_right _ (by simp at h; omega)
  · omega

theorem mem_terminator (post y : List ι) (z : ι) {u : Neu ι} (h : u.isMatch z = false) :
    ∃ x ∈ post ++ z :: y, u.isMatch x = false := ⟨z, by simp, h⟩

/-! ## All patterns -/

/-- What is to be shown of one pattern at one position. -/
def StopGoal (G : Rules ι β) (n : Nat) (pol : Option (Pat ι β)) (d0 y : List ι) (z : ι) (p : Pat ι β) (o : Nat) : Prop :=
  ∀ r, parse G n pol (d0 ++ z :: y) p o = some r → parseS G n pol (d0 ++ z :: y) p o = some r ∧ InR (Valid d0) r

theorem stop_inv (z : ι) (n : Nat) : ∀ (pol : Option (Pat ι β)), (∀ q, pol = some q → All G (StopsAt G none z) q) →
    ∀ (d0 y : List ι) (p : Pat ι β) (o : Nat), Valid d0 o → All G (StopsAt G pol z) p → StopGoal G n pol d0 y z p o := by
  induction n with
  | zero => intro _ _ _ _ _ _ _ _ r hr; cases hr
  | succ n ih =>
    intro pol hpol d0 y p o hv hp
    have M : ∀ d0 q o, All G (StopsAt G pol z) q → Valid d0 o → ∀ r, matWith (parse G n) pol (d0 ++ z :: y) q o = some r →
        matWith (parseS G n) pol (d0 ++ z :: y) q o = some r ∧ InR (Valid d0) r := by
      intro d0 q o hq ho r hr
      cases pol with
      | none => exact ih none hpol d0 y q o ho hq r hr
      | some w =>
        simp only [matWith] at hr ⊢
        cases hw : parse G n none (d0 ++ z :: y) w o with
        | none => rw [hw] at hr; cases hr
        | some v =>
          obtain ⟨h1, h2⟩ := ih none (fun _ h => by cases h) d0 y w o ho (hpol w rfl) v hw
          rw [hw] at hr; rw [h1]
          cases v with
          | ok s o1 => exact ih _ hpol d0 y q o1 h2 hq r hr
          | err e o1 => simp only [caseR, Option.some.injEq] at hr; subst hr; exact ⟨rfl, h2⟩
          | panic => simp only [caseR, Option.some.injEq] at hr; subst hr; exact ⟨rfl, trivial⟩
    have self := hp.self
    -- the evaluator that watches for the end, once the pattern itself does not ask
    have done : ∀ {r}, Done (matWith (parseS G n) pol) (d0 ++ z :: y) o p →
        step G n (matWith (parseS G n) pol) (parseS G n pol (d0 ++ z :: y)) (d0 ++ z :: y) p o = some r →
        parseS G (n + 1) pol (d0 ++ z :: y) p o = some r := by
      intro r hD hs
      rw [parseS]; dsimp only
      rw [if_pos hD]; exact hs
    have comb : Combines p → Done (matWith (parseS G n) pol) (d0 ++ z :: y) o p →
        (∀ mt pr, step G n mt pr (d0 ++ z :: y) p o = step G n (fun _ => mt (d0 ++ z :: y)) pr [] p o) →
        StopGoal G (n + 1) pol d0 y z p o := by
      intro hcm hD he r hr
      have hr : step G n (matWith (parse G n) pol) (parse G n pol (d0 ++ z :: y)) (d0 ++ z :: y) p o = some r := hr
      rw [he] at hr
      refine ⟨done hD ?_, ?_⟩
      · rw [he]
        have := step_leK (E := Eq) (R := fun a b => a = b ∧ All G (StopsAt G pol z) a) (fun _ => rfl) (K := fun _ o => Valid d0 o)
          (fun _ _ _ _ => ⟨[], d0, rfl, rfl⟩)
          (mt := fun _ => matWith (parse G n) pol (d0 ++ z :: y)) (mt' := fun _ => matWith (parseS G n) pol (d0 ++ z :: y))
          (pr := parse G n pol (d0 ++ z :: y)) (pr' := parseS G n pol (d0 ++ z :: y))
          (fun _ a b o hab ho => by
            obtain ⟨rfl, ha⟩ := hab
            exact ⟨fun r hr => ⟨r, (M d0 a o ha ho r hr).1, SameRes.refl (fun _ => rfl) r⟩, fun r hr => (M d0 a o ha ho r hr).2⟩)
          n [] (fun a b o hab ho => by
            obtain ⟨rfl, ha⟩ := hab
            exact fun r hr => ⟨r, (ih pol hpol d0 y a o ho ha r hr).1, SameRes.refl (fun _ => rfl) r⟩)
          (sameShape_children fun q hq => ⟨rfl, hp.child hq⟩) (by cases p <;> first | trivial | exact hcm.elim) o hv r hr
        obtain ⟨r', h1, h2⟩ := this
        cases h2 with
        | ok => exact h1
        | err _ he => cases he; exact h1
        | panic => exact h1
      · refine combine_in hcm hv (fun q o hc ho r hr => (M d0 q o (hp.child hc) ho r hr).2)
          (fun q o hc ho r hr => (ih pol hpol d0 y q o ho (hp.child hc) r hr).2) (fun a b e q s o' hc hq => ?_) r hr
        subst e
        obtain ⟨rfl, ha, hb⟩ := self
        have ht : All G Tidy q := by rcases hc with rfl | rfl <;> assumption
        have := exact_inv G n (d0 ++ z :: y) q o ht _ hq
        obtain ⟨h1, h2⟩ := this
        rw [h2, h1]
    -- primitives
    obtain ⟨pre, post, hd0, hpre⟩ := id hv
    have hd : d0 ++ z :: y = pre ++ (post ++ z :: y) := by rw [hd0, List.append_assoc]
    have hdr : dropB (d0 ++ z :: y) o = some (post ++ z :: y) := by rw [hd, ← hpre]; exact dropB_append _ _
    have hvd : Valid (d0 ++ z :: y) o := ⟨pre, post ++ z :: y, hd, hpre⟩
    have hlt : o < blen (d0 ++ z :: y) := by
      have := hv.le; have := Item.size_pos z; simp; omega
    have P : ∀ {r}, parse G (n + 1) pol (d0 ++ z :: y) p o = some r → Parses G pol (d0 ++ z :: y) p o r := fun h => ⟨_, h⟩
    -- tests of items before `z`
    have T : ∀ (u : Neu ι) (c : Cond ι β), c.Plain → (∀ q, c.Has q → All G (StopsAt G pol z) q) → ∀ pr ∈ indices 0 post,
        Le (testItem (matWith (parse G n) pol) (d0 ++ z :: y) o u c pr)
          (testItem (matWith (parseS G n) pol) (d0 ++ z :: y) o u c pr) := by
      intro u c hc hq pr hpr
      unfold testItem
      split
      · cases c with
        | empty => exact Le.refl _
        | fn f => exact hc.elim
        | regex q =>
          obtain ⟨a, b, he, hb⟩ : ∃ a b, post = a ++ b ∧ pr.1 = blen a := by
            obtain ⟨a, b, e, h1⟩ := mem_indices hpr
            exact ⟨a, pr.2 :: b, e, by omega⟩
          have hsuf : dropB (d0 ++ z :: y) (o + pr.1) = some (b ++ z :: y) := by
            rw [hd, he, hb, ← hpre, ← blen_append, show pre ++ (a ++ b ++ z :: y) = (pre ++ a) ++ (b ++ z :: y) by simp]
            exact dropB_append _ _
          intro v hv'
          simp only [check, origAt_ok.mpr hsuf] at hv' ⊢
          cases hm : matWith (parse G n) pol (b ++ z :: y) q 0 with
          | none => rw [hm] at hv'; cases hv'
          | some w =>
            rw [hm] at hv'
            rw [(M b q 0 (hq q rfl) ⟨[], b, rfl, rfl⟩ w hm).1]
            exact hv'
      · exact Le.refl _
    have quiet : ∀ c : Cond ι β, c.Plain → c.Quiet (d0 ++ z :: y) o := by
      intro c hc; cases c <;> first | trivial | exact hc.elim
    have Tz : ∀ (mt : List ι → Pat ι β → Nat → Option (Res Span)) (u : Neu ι) (c : Cond ι β) i, u.isMatch z = false →
        testItem mt (d0 ++ z :: y) o u c (i, z) = some (.ok false) := by
      intro mt u c i hz; simp [testItem, hz]
    have first : ∃ a rest, post ++ z :: y = a :: rest := by cases post <;> exact ⟨_, _, rfl⟩
    obtain ⟨fa, frest, hfirst⟩ := first
    have T0 : ∀ (u : Neu ι) (c : Cond ι β), c.Plain → u.isMatch z = false → (∀ q, c.Has q → All G (StopsAt G pol z) q) →
        Le (testItem (matWith (parse G n) pol) (d0 ++ z :: y) o u c (0, fa))
          (testItem (matWith (parseS G n) pol) (d0 ++ z :: y) o u c (0, fa)) := by
      intro u c hc hz hq
      cases post with
      | nil =>
        cases hfirst
        rw [Tz _ u c 0 hz, Tz _ u c 0 hz]; exact Le.refl _
      | cons b t =>
        cases hfirst
        exact T u c hc hq (0, fa) (by simp [indices])
    cases p with
    | consume k => exact self.elim
    | consumeAll => exact self.elim
    | native f => exact self.elim
    | branch t a b => exact self.elim
    | build q f => exact self.elim
    | anchorEnd =>
      intro r hr
      have hr : step G n (matWith (parse G n) pol) (parse G n pol (d0 ++ z :: y)) (d0 ++ z :: y) .anchorEnd o = some r := hr
      refine ⟨done hlt hr, ?_⟩
      simp only [step] at hr
      rw [if_neg (by omega)] at hr
      cases hr; exact hv
    | lit l =>
      intro r hr
      have hz : z ∉ l := self
      have hr' : litParse (d0 ++ z :: y) l o = some r := hr
      refine ⟨done ⟨_, hdr, ?_⟩ hr, leaf_inside (tp := False) hv (leaf_lit _ l o False r hr') fun s o' e => ?_⟩
      · by_cases h1 : l <+: post ++ z :: y
        · exact .inl h1
        · refine .inr fun ⟨t, ht⟩ => hz ?_
          rw [← ht]; simp
      · subst e
        simp only [litParse, remK_at hdr, origAt_ok.mpr hdr, caseO] at hr'
        split at hr'
        · split at hr'
          · next h1 =>
            obtain ⟨t, ht⟩ := List.isPrefixOf_iff_prefix.mp h1
            refine ⟨pre, l, t, by rw [hd, ← ht, List.append_assoc], hpre, hz, ?_⟩
            simp only [newSpanInc, Option.some.injEq, Res.ok.injEq] at hr'
            exact hr'.2.symm
          · cases hr'
        · cases hr'
    | once u c =>
      intro r hr
      obtain ⟨hz, hc⟩ := self
      have hr' : onceParse (matWith (parse G n) pol) (d0 ++ z :: y) u c o = some r := hr
      refine ⟨done ⟨quiet c hc, fa, frest, by rw [hdr, hfirst]⟩ ?_, leaf_inside hv (leaf_once _ _ _ _ _ r hr') fun s o' e => ?_⟩
      · show onceParse _ _ _ _ _ = _
        unfold onceParse at hr' ⊢
        rw [peek_at hdr, hfirst] at hr' ⊢
        simp only [caseO, remK_at hdr, indices] at hr' ⊢
        exact caseO_le (T0 u c hc hz fun q hq => hp.child hq) (fun _ => Le.refl _) (fun _ => Le.refl _) r hr'
      · subst e
        rw [← hpre] at hr
        obtain ⟨x, tl, h1, h2, _, h3⟩ := ((C23_once u c pre _ hd).1 s o').mp ⟨_, hr⟩
        exact ⟨pre, [x], tl, by rw [hd, h1]; simp, hpre, by simpa using gives_avoids h2 hz, by rw [h3, hpre]; simp⟩
    | optU u c =>
      intro r hr
      obtain ⟨hz, hc⟩ := self
      have hr' : optUParse (matWith (parse G n) pol) (d0 ++ z :: y) u c o = some r := hr
      refine ⟨done ⟨quiet c hc, fa, frest, by rw [hdr, hfirst]⟩ ?_, leaf_inside hv (leaf_optU _ _ _ _ _ r hr') fun s o' e => ?_⟩
      · show optUParse _ _ _ _ _ = _
        unfold optUParse at hr' ⊢
        rw [peek_at hdr, hfirst] at hr' ⊢
        simp only [caseO, remK_at hdr, indices] at hr' ⊢
        exact caseO_le (T0 u c hc hz fun q hq => hp.child hq) (fun _ => Le.refl _) (fun _ => Le.refl _) r hr'
      · subst e
        rw [← hpre] at hr
        rcases ((C23_opt_unit u c pre _ hd).1 s o').mp ⟨_, hr⟩ with ⟨x, tl, h1, h2, _, h3⟩ | ⟨_, _, h3⟩
        · exact ⟨pre, [x], tl, by rw [hd, h1]; simp, hpre, by simpa using gives_avoids h2 hz, by rw [h3, hpre]; simp⟩
        · exact ⟨pre, [], post ++ z :: y, by rw [List.append_nil]; exact hd, hpre, by simp, by rw [h3, hpre]; simp⟩
    | many0 u c =>
      intro r hr
      obtain ⟨hz, hc⟩ := self
      have hr' : many0Parse (matWith (parse G n) pol) (d0 ++ z :: y) u c o = some r := hr
      have S := fun w => scan_upto (more := fun _ => true) (z := z) (y := y) post 0 0 none
        (T u c hc fun q hq => hp.child hq) (Tz _ u c _ hz) (Tz _ u c _ hz) w
      refine ⟨?_, leaf_inside hv (leaf_many0 _ _ _ _ _ r hr') fun s o' e => ?_⟩
      · unfold many0Parse at hr'
        rw [peek_at hdr] at hr'
        simp only [caseO, remK_at hdr] at hr'
        cases hsc : scan (testItem (matWith (parse G n) pol) (d0 ++ z :: y) o u c) (fun _ => true) 0 none
            (indices 0 (post ++ z :: y)) with
        | none => rw [hsc] at hr'; cases hr'
        | some w =>
          obtain ⟨h1, h2⟩ := S w hsc
          refine done ⟨quiet c hc, _, hdr, fun s hs => h2 s (Option.some.inj (h1.symm.trans hs))⟩ ?_
          show many0Parse _ _ _ _ _ = _
          unfold many0Parse
          rw [peek_at hdr]
          simp only [caseO, remK_at hdr]
          rw [h1]; rw [hsc] at hr'; exact hr'
      · subst e
        obtain ⟨run, rest, hg, _, h3⟩ := ((C23_many0 u c o hvd).1 s o').mp ⟨_, hr⟩
        exact greedy_inside hg hz h3
    | many1 u c =>
      intro r hr
      obtain ⟨hz, hc⟩ := self
      have hr' : many1Parse (matWith (parse G n) pol) (d0 ++ z :: y) u c o = some r := hr
      have S := fun w => scan_upto (more := fun _ => true) (z := z) (y := y) post 0 0 none
        (T u c hc fun q hq => hp.child hq) (Tz _ u c _ hz) (Tz _ u c _ hz) w
      refine ⟨?_, leaf_inside hv (leaf_many1 _ _ _ _ _ r hr') fun s o' e => ?_⟩
      · unfold many1Parse at hr'
        rw [peek_at hdr] at hr'
        simp only [caseO, remK_at hdr] at hr'
        cases hsc : scan (testItem (matWith (parse G n) pol) (d0 ++ z :: y) o u c) (fun _ => true) 0 none
            (indices 0 (post ++ z :: y)) with
        | none => rw [hsc] at hr'; cases hr'
        | some w =>
          obtain ⟨h1, h2⟩ := S w hsc
          refine done ⟨quiet c hc, _, hdr, fun s hs => h2 s (Option.some.inj (h1.symm.trans hs))⟩ ?_
          show many1Parse _ _ _ _ _ = _
          unfold many1Parse
          rw [peek_at hdr]
          simp only [caseO, remK_at hdr]
          rw [h1]; rw [hsc] at hr'; exact hr'
      · subst e
        obtain ⟨run, rest, hg, _, _, h3⟩ := ((C23_many1 u c o hvd).1 s o').mp ⟨_, hr⟩
        exact greedy_inside hg hz h3
    | between m k u c =>
      intro r hr
      obtain ⟨hz, hf, rfl⟩ := self
      have hr' : betweenParse (matWith (parse G n) pol) (d0 ++ z :: y) m k u .empty o = some r := hr
      refine ⟨done ⟨trivial, _, hdr, ?_⟩ hr', leaf_inside hv (leaf_between _ _ _ _ _ _ _ r hr') fun s o' e => ?_⟩
      · obtain ⟨s, h1, h2, h3⟩ := scan_fair (d := d0 ++ z :: y) (matWith (parseS G n) pol) o u hf (fun j => decide (j < k))
          (post ++ z :: y) 0 0 none
        have hE := h2 (mem_terminator post y z hz)
        by_cases hm : m * u.minLength ≤ blen (post ++ z :: y)
        · exact .inl ⟨hm, fun s' hs' => by cases h1.symm.trans hs'; exact hE⟩
        · refine .inr ⟨s, h1, hE, Nat.lt_of_not_le fun hle => hm ?_⟩
          have := Nat.mul_le_mul_right u.minLength hle
          omega
      · subst e
        obtain ⟨run, rest, hg, _, _, h3⟩ := ((C24_between m k u hf .empty o hvd).1 s o').mp ⟨_, hr⟩
        exact greedy_inside hg hz h3
    | times rg u c =>
      intro r hr
      obtain ⟨hz, hf, rfl⟩ := self
      have hr' : timesParse (matWith (parse G n) pol) (d0 ++ z :: y) rg u .empty o = some r := hr
      refine ⟨done ⟨trivial, _, hdr, ?_⟩ hr', leaf_inside hv (leaf_times _ _ _ _ _ _ r hr') fun s o' e => ?_⟩
      · obtain ⟨s, h1, h2, h3⟩ := scan_fair (d := d0 ++ z :: y) (matWith (parseS G n) pol) o u hf rg.more
          (post ++ z :: y) 0 0 none
        have hE := h2 (mem_terminator post y z hz)
        by_cases hm : rg.needed u.minLength ≤ blen (post ++ z :: y)
        · exact .inl ⟨hm, fun s' hs' => by cases h1.symm.trans hs'; exact hE⟩
        · refine .inr ⟨s, h1, hE, ?_⟩
          cases hcn : rg.contains s.cnt with
          | false => rfl
          | true => exact absurd (by have := needed_le_count (m := u.minLength) hcn; omega) hm
      · subst e
        obtain ⟨run, rest, hg, _, _, _, h3⟩ := ((C24_times rg u hf .empty o hvd).1 s o').mp ⟨_, hr⟩
        exact greedy_inside hg hz h3
    | thenU u v c =>
      intro r hr
      obtain ⟨hz, hz', hf, hf', rfl⟩ := self
      have hr' : thenUParse (matWith (parse G n) pol) (d0 ++ z :: y) u v .empty o = some r := hr
      refine ⟨done ⟨trivial, ?_⟩ hr', leaf_inside hv (leaf_thenU _ _ _ _ _ _ r hr') fun s o' e => ?_⟩
      · cases hu : u.isMatch fa with
        | false => exact .inr ⟨fa, frest, by rw [hdr, hfirst], by simp [testItem, hu]⟩
        | true =>
          refine .inl ?_
          cases post with
          | nil => cases hfirst; rw [hz] at hu; cases hu
          | cons a t =>
            cases hfirst
            have : ∃ b t', t ++ z :: y = b :: t' := by cases t <;> exact ⟨_, _, rfl⟩
            obtain ⟨b, t', hb⟩ := this
            refine ⟨fa, b, t', by rw [hdr, List.cons_append, hb], ?_⟩
            cases hvb : v.isMatch b with
            | false => exact .inr ⟨by simp [testItem, hu, check], by simp [testItem, hvb]⟩
            | true =>
              have h1 := hf fa hu
              have h2 := hf' b hvb
              exact .inl (by simp only [blen_cons]; omega)
      · subst e
        rw [← hpre] at hr
        obtain ⟨x, w, tl, h1, h2, h3, _, h4⟩ := (C25_unit_then u v hf hf' .empty pre _ hd s o').mp ⟨_, hr⟩
        refine ⟨pre, [x, w], tl, by rw [hd, h1]; simp, hpre, ?_, by rw [h4, hpre]; simp⟩
        have := gives_avoids h2 hz; have := gives_avoids h3 hz'
        simp; exact ⟨‹_›, ‹_›⟩
    | empty => exact comb trivial trivial fun _ _ => rfl
    | fail => exact comb trivial trivial fun _ _ => rfl
    | start => exact comb trivial trivial fun _ _ => rfl
    | assert q value => exact comb trivial trivial fun _ _ => rfl
    | thn a b => exact comb trivial trivial fun _ _ => rfl
    | ifThen a t b => exact comb trivial trivial fun _ _ => rfl
    | pre a b => exact comb trivial trivial fun _ _ => rfl
    | suf a b => exact comb trivial trivial fun _ _ => rfl
    | enclose a b c => exact comb trivial trivial fun _ _ => rfl
    | sepOnce a b c => exact comb trivial trivial fun _ _ => rfl
    | or a b => exact comb trivial trivial fun _ _ => rfl
    | longest a b => exact comb trivial trivial fun _ _ => rfl
    | opt q => exact comb trivial trivial fun _ _ => rfl
    | choice e items => exact comb trivial trivial fun _ _ => rfl
    | ltm e items => exact comb trivial trivial fun _ _ => rfl
    | rep q r => exact comb trivial trivial fun _ _ => rfl
    | rep2 q m k => exact comb trivial trivial fun _ _ => rfl
    | collect q min => exact comb trivial trivial fun _ _ => rfl
    | sep q s skip min => exact comb trivial trivial fun _ _ => rfl
    | sep2 q s skip m k => exact comb trivial trivial fun _ _ => rfl
    | sepCollect q s skip min => exact comb trivial trivial fun _ _ => rfl
    | map q f => exact comb trivial trivial fun _ _ => rfl
    | pat q => exact comb trivial trivial fun _ _ => rfl
    | dthen q f => intro r hr; exact ⟨done trivial hr, by cases hr; trivial⟩
    | cell i => exact comb trivial trivial fun _ _ => rfl

end Neure
