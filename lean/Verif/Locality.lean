import Verif.DataLemmas
import Verif.Den
/-!
# Matching a suffix (proofs for C27)
-/

namespace Neure

set_option linter.unusedSectionVars false

variable {ι β : Type} [Item ι] {G : Rules ι β}

/-- Shifted outcome of a computation that may not have finished. -/
def sh (k : Nat) (r : Option (Res Span)) : Option (Res Span) := r.map (Res.shift k)

@[simp] theorem sh_none (k : Nat) : sh k none = none := rfl
@[simp] theorem sh_ok (k : Nat) (s : Span) (o : Nat) :
    sh k (some (.ok s o)) = some (.ok (s.shift k) (k + o)) := rfl
@[simp] theorem sh_err (k : Nat) (e : Error) (o : Nat) :
    sh k (some (.err e o)) = some (.err e (k + o)) := rfl
@[simp] theorem sh_panic (k : Nat) : sh k (some .panic) = some .panic := rfl

theorem caseR_sh {k : Nat} {r' r : Option (Res Span)}
    {kOk' kOk : Span → Nat → Option (Res Span)} {kErr' kErr : Error → Nat → Option (Res Span)}
    (hr : r' = sh k r) (hok : ∀ s o, kOk' (s.shift k) (k + o) = sh k (kOk s o))
    (herr : ∀ e o, kErr' e (k + o) = sh k (kErr e o)) :
    caseR r' kOk' kErr' = sh k (caseR r kOk kErr) := by
  subst hr
  match r with
  | none => rfl
  | some (.ok s o) => exact hok s o
  | some (.err e o) => exact herr e o
  | some .panic => rfl

theorem caseO_sh {α : Type} {k : Nat} {r : Option (Out α)} {kOk' kOk : α → Option (Res Span)}
    {kErr' kErr : Error → Option (Res Span)} (hok : ∀ a, kOk' a = sh k (kOk a))
    (herr : ∀ e, kErr' e = sh k (kErr e)) : caseO r kOk' kErr' = sh k (caseO r kOk kErr) := by
  match r with
  | none => rfl
  | some (.ok s) => exact hok s
  | some (.err e) => exact herr e
  | some .panic => rfl

theorem addK_sh {k : Nat} {s t : Span} {f' f : Span → Option (Res Span)}
    (h : ∀ u, f' (u.shift k) = sh k (f u)) : addK (s.shift k) (t.shift k) f' = sh k (addK s t f) := by
  unfold addK Span.addAssign
  have hc : ((s.shift k).beg ≤ (t.shift k).beg ∧
      (s.shift k).beg + (s.shift k).len ≤ (t.shift k).len + (t.shift k).beg) ↔
      (s.beg ≤ t.beg ∧ s.beg + s.len ≤ t.len + t.beg) := by
    simp only [Span.shift]; omega
  by_cases h1 : s.beg ≤ t.beg ∧ s.beg + s.len ≤ t.len + t.beg
  · rw [if_pos h1, if_pos (hc.mpr h1)]
    simp only
    rw [← h]
    congr 1
    show Span.mk (k + s.beg) (s.len + (t.len + (k + t.beg) - (k + s.beg + s.len))) =
      Span.mk (k + s.beg) (s.len + (t.len + t.beg - (s.beg + s.len)))
    congr 1; omega
  · rw [if_neg h1, if_neg (fun x => h1 (hc.mp x))]
    rfl

theorem remK_sh {pre d : List ι} {o : Nat} {f' f : Nat → Option (Res Span)}
    (h : ∀ n, f' n = sh (blen pre) (f n)) :
    remK (pre ++ d) (blen pre + o) f' = sh (blen pre) (remK d o f) := by
  unfold remK
  rw [blen_append]
  by_cases h1 : o ≤ blen d
  · rw [if_pos h1, if_pos (by omega), h]; congr 2; omega
  · rw [if_neg h1, if_neg (by omega)]; rfl

theorem spanK_sh {k o : Nat} {l : Option Nat} : spanK (k + o) l = sh k (spanK o l) := by
  cases l with
  | none => rfl
  | some l => simp [spanK, newSpanInc, Span.shift, Nat.add_assoc]

theorem dropB_pre (pre d : List ι) (o : Nat) : dropB (pre ++ d) (blen pre + o) = dropB d o :=
  dropB_add (dropB_append pre d)

theorem origAt_pre (pre d : List ι) (o : Nat) : origAt (pre ++ d) (blen pre + o) = origAt d o := by
  unfold origAt
  rw [dropB_pre, blen_append]
  have : decide (blen pre + blen d < blen pre + o) = decide (blen d < o) := by
    simp only [Nat.add_lt_add_iff_left]
  rw [this]

theorem peek_pre (pre d : List ι) (o : Nat) : peek (pre ++ d) (blen pre + o) = peek d o := by
  unfold peek; rw [origAt_pre]

theorem testItem_pre (mt : List ι → Pat ι β → Nat → Option (Res Span)) (pre d : List ι) (o : Nat)
    (u : Neu ι) {c : Cond ι β} (hc : c.Local) (pr : Nat × ι) :
    testItem mt (pre ++ d) (blen pre + o) u c pr = testItem mt d o u c pr := by
  unfold testItem
  split
  · cases c with
    | empty => rfl
    | fn f => simp only [check]; rw [hc pre d o pr]
    | regex p => simp only [check]; rw [Nat.add_assoc, origAt_pre]
  · rfl

section Leaves
variable (mt : List ι → Pat ι β → Nat → Option (Res Span)) (pre d : List ι) (u v : Neu ι)
  {c : Cond ι β} (hc : c.Local) (o : Nat)
include hc

theorem once_pre : onceParse mt (pre ++ d) u c (blen pre + o) = sh (blen pre) (onceParse mt d u c o) := by
  unfold onceParse
  rw [peek_pre]
  refine caseO_sh (fun it => remK_sh fun n => ?_) (fun e => rfl)
  cases it with
  | nil => rfl
  | cons pr it =>
    simp only
    rw [testItem_pre mt pre d o u hc]
    refine caseO_sh (fun b => ?_) (fun e => rfl)
    cases b
    · rfl
    · exact spanK_sh

theorem optU_pre : optUParse mt (pre ++ d) u c (blen pre + o) = sh (blen pre) (optUParse mt d u c o) := by
  unfold optUParse
  refine remK_sh fun n => ?_
  rw [peek_pre]
  refine caseO_sh (fun it => ?_) (fun e => rfl)
  cases it with
  | nil => rfl
  | cons pr it =>
    simp only
    rw [testItem_pre mt pre d o u hc]
    refine caseO_sh (fun b => ?_) (fun e => rfl)
    cases b
    · rfl
    · exact spanK_sh

theorem testItem_pre_fun :
    testItem mt (pre ++ d) (blen pre + o) u c = testItem mt d o u c :=
  funext fun pr => testItem_pre mt pre d o u hc pr

theorem many0_pre : many0Parse mt (pre ++ d) u c (blen pre + o) = sh (blen pre) (many0Parse mt d u c o) := by
  unfold many0Parse
  refine remK_sh fun n => ?_
  rw [peek_pre]
  refine caseO_sh (fun it => ?_) (fun e => rfl)
  rw [testItem_pre_fun mt pre d u hc]
  refine caseO_sh (fun s => ?_) (fun e => rfl)
  cases s.beg with
  | none => rfl
  | some b => exact spanK_sh

theorem many1_pre : many1Parse mt (pre ++ d) u c (blen pre + o) = sh (blen pre) (many1Parse mt d u c o) := by
  unfold many1Parse
  rw [peek_pre]
  refine caseO_sh (fun it => remK_sh fun n => ?_) (fun e => rfl)
  rw [testItem_pre_fun mt pre d u hc]
  refine caseO_sh (fun s => ?_) (fun e => rfl)
  cases s.beg with
  | none => rfl
  | some b => exact spanK_sh

theorem between_pre (m k : Nat) : betweenParse mt (pre ++ d) m k u c (blen pre + o) =
    sh (blen pre) (betweenParse mt d m k u c o) := by
  unfold betweenParse
  rw [peek_pre]
  refine caseO_sh (fun it => remK_sh fun n => ?_) (fun e => rfl)
  rw [testItem_pre_fun mt pre d u hc]
  split
  · refine caseO_sh (fun s => ?_) (fun e => rfl)
    split
    · exact spanK_sh
    · rfl
  · rfl

theorem times_pre (r : CRange) : timesParse mt (pre ++ d) r u c (blen pre + o) =
    sh (blen pre) (timesParse mt d r u c o) := by
  unfold timesParse
  rw [peek_pre]
  refine caseO_sh (fun it => remK_sh fun n => ?_) (fun e => rfl)
  rw [testItem_pre_fun mt pre d u hc]
  split
  · refine caseO_sh (fun s => ?_) (fun e => rfl)
    split
    · exact spanK_sh
    · rfl
  · rfl

theorem thenU_pre : thenUParse mt (pre ++ d) u v c (blen pre + o) =
    sh (blen pre) (thenUParse mt d u v c o) := by
  unfold thenUParse
  rw [peek_pre]
  refine caseO_sh (fun it => remK_sh fun n => ?_) (fun e => rfl)
  split
  · match it with
    | [] => rfl
    | [_] => rfl
    | fst :: snd :: it =>
      simp only
      rw [testItem_pre mt pre d o u hc, testItem_pre mt pre d o v hc]
      refine caseO_sh (fun b => ?_) (fun e => rfl)
      cases b
      · rfl
      · refine caseO_sh (fun b => ?_) (fun e => rfl)
        cases b
        · rfl
        · exact spanK_sh
  · rfl

end Leaves

theorem lit_pre (pre d l : List ι) (o : Nat) :
    litParse (pre ++ d) l (blen pre + o) = sh (blen pre) (litParse d l o) := by
  unfold litParse
  refine remK_sh fun n => ?_
  split
  · rw [origAt_pre]
    refine caseO_sh (fun it => ?_) (fun e => rfl)
    split
    · simp [newSpanInc, Span.shift, Nat.add_assoc]
    · rfl
  · rfl

theorem consume_pre (pre d : List ι) (m o : Nat) :
    consumeParse (pre ++ d) m (blen pre + o) = sh (blen pre) (consumeParse d m o) := by
  unfold consumeParse
  refine remK_sh fun n => ?_
  split
  · simp [newSpanInc, Span.shift, Nat.add_assoc]
  · rfl

section Loops
variable {k : Nat} {mt' mt : Pat ι β → Nat → Option (Res Span)}

theorem choiceLoop_sh (e : Error) (beg : Nat) (items : List (Pat ι β × Option (Val β)))
    (h : ∀ it ∈ items, ∀ o, mt' it.1 (k + o) = sh k (mt it.1 o)) (o : Nat) :
    choiceLoop mt' e (k + beg) items (k + o) = sh k (choiceLoop mt e beg items o) := by
  induction items generalizing o with
  | nil => rfl
  | cons it items ih =>
    simp only [choiceLoop]
    refine caseR_sh (h it (by simp) o) (fun s o' => rfl) (fun _ _ => ?_)
    exact ih (fun x hx => h x (by simp [hx])) beg

theorem ltmLoop_sh (e : Error) (beg : Nat) (items : List (Pat ι β × Option (Val β)))
    (h : ∀ it ∈ items, ∀ o, mt' it.1 (k + o) = sh k (mt it.1 o)) (best : Option Span) (o : Nat) :
    ltmLoop mt' e (k + beg) items (best.map (Span.shift k)) (k + o) =
      sh k (ltmLoop mt e beg items best o) := by
  induction items generalizing o best with
  | nil => cases best <;> rfl
  | cons it items ih =>
    have ih' := ih fun x hx => h x (by simp [hx])
    simp only [ltmLoop]
    refine caseR_sh (h it (by simp) beg) (fun s o' => ?_) (fun _ o' => ih' best o')
    rw [← ih']
    congr 1
    cases best with
    | none => rfl
    | some b =>
      by_cases hlt : b.len < s.len <;> simp [Span.shift, hlt]

theorem repLoop_sh (p : Pat ι β) (more : Nat → Bool) {fin' fin : Nat → Span → Nat → Option (Res Span)}
    (h : ∀ o, mt' p (k + o) = sh k (mt p o))
    (hf : ∀ c t o, fin' c (t.shift k) (k + o) = sh k (fin c t o)) (fuel cnt : Nat) (t : Span) (o : Nat) :
    repLoop mt' p more fin' fuel cnt (t.shift k) (k + o) =
      sh k (repLoop mt p more fin fuel cnt t o) := by
  induction fuel generalizing cnt t o with
  | zero => rfl
  | succ n ih =>
    simp only [repLoop]
    split
    · exact caseR_sh (h o) (fun s o' => addK_sh fun u => ih _ _ _) (fun _ o' => hf _ _ _)
    · exact hf _ _ _

theorem sepLoop_sh (p s : Pat ι β) (skip : Bool) (more : Nat → Bool)
    {fin' fin : Nat → Span → Nat → Option (Res Span)}
    (h : ∀ o, mt' p (k + o) = sh k (mt p o)) (h2 : ∀ o, mt' s (k + o) = sh k (mt s o))
    (hf : ∀ c t o, fin' c (t.shift k) (k + o) = sh k (fin c t o)) (fuel cnt : Nat) (t : Span) (o : Nat) :
    sepLoop mt' p s skip more fin' fuel cnt (t.shift k) (k + o) =
      sh k (sepLoop mt p s skip more fin fuel cnt t o) := by
  induction fuel generalizing cnt t o with
  | zero => rfl
  | succ n ih =>
    simp only [sepLoop]
    split
    · refine caseR_sh (h o) (fun sp o' => caseR_sh (h2 o') (fun ss o2 => addK_sh fun u =>
        addK_sh fun w => ih _ _ _) (fun _ o2 => ?_)) (fun _ o' => hf _ _ _)
      split
      · exact addK_sh fun u => hf _ _ _
      · exact hf _ _ _
    · exact hf _ _ _

theorem finish_sh (ok : Nat → Bool) (e : Error) (beg c : Nat) (t : Span) (o : Nat) :
    finish ok e (k + beg) c (t.shift k) (k + o) = sh k (finish ok e beg c t o) := by
  unfold finish; split <;> rfl

end Loops

theorem step_sh (fuel : Nat) {mt : List ι → Pat ι β → Nat → Option (Res Span)}
    {pr' pr : Pat ι β → Nat → Option (Res Span)} (pre d : List ι) (p : Pat ι β) (o : Nat)
    (hl : All G Local p)
    (hmt : ∀ q, All G Local q → ∀ o, mt (pre ++ d) q (blen pre + o) = sh (blen pre) (mt d q o))
    (hpr : ∀ q, All G Local q → ∀ o, pr' q (blen pre + o) = sh (blen pre) (pr q o)) :
    step G fuel mt pr' (pre ++ d) p (blen pre + o) = sh (blen pre) (step G fuel mt pr d p o) := by
  have loc := hl.self
  have C : ∀ q, Child G q p → ∀ o, mt (pre ++ d) q (blen pre + o) = sh (blen pre) (mt d q o) :=
    fun q hq => hmt q (hl.child hq)
  have S0 : ∀ o, (⟨blen pre + o, 0⟩ : Span) = (⟨o, 0⟩ : Span).shift (blen pre) := fun _ => rfl
  cases p with
  | empty => rfl
  | fail => rfl
  | start => exact loc.elim
  | anchorEnd =>
    simp only [step, blen_append, Nat.add_left_cancel_iff]
    split <;> rfl
  | consume n => exact consume_pre pre d n o
  | consumeAll =>
    simp only [step, blen_append, newSpanInc, sh_ok, Span.shift]
    rw [show blen pre + blen d - (blen pre + o) = blen d - o by omega, Nat.add_assoc]
  | lit l => exact lit_pre pre d l o
  | native f =>
    simp only [step]; rw [loc pre d o]; rfl
  | once u c => exact once_pre mt pre d u loc o
  | many1 u c => exact many1_pre mt pre d u loc o
  | optU u c => exact optU_pre mt pre d u loc o
  | many0 u c => exact many0_pre mt pre d u loc o
  | between m n u c => exact between_pre mt pre d u loc o m n
  | times r u c => exact times_pre mt pre d u loc o r
  | thenU u v c => exact thenU_pre mt pre d u v loc o
  | assert q value =>
    simp only [step]
    refine caseR_sh (C q rfl o) (fun s o' => ?_) (fun e o' => ?_) <;> cases value <;> rfl
  | thn a b =>
    exact caseR_sh (C a (.inl rfl) o) (fun s o' => caseR_sh (C b (.inr rfl) o')
      (fun s o' => addK_sh fun _ => rfl) (fun _ _ => rfl)) (fun _ _ => rfl)
  | ifThen a t b =>
    exact caseR_sh (C a (.inl rfl) o) (fun s o' => caseR_sh (C t (.inr (.inl rfl)) o')
      (fun s o' => addK_sh fun _ => caseR_sh (C b (.inr (.inr rfl)) o') (fun s o' => addK_sh fun _ => rfl)
        (fun _ _ => rfl)) (fun _ _ => rfl)) (fun _ _ => rfl)
  | pre a b =>
    exact caseR_sh (C a (.inl rfl) o) (fun s o' => caseR_sh (C b (.inr rfl) o')
      (fun s o' => addK_sh fun _ => rfl) (fun _ _ => rfl)) (fun _ _ => rfl)
  | suf a b =>
    exact caseR_sh (C a (.inl rfl) o) (fun s o' => caseR_sh (C b (.inr rfl) o')
      (fun s o' => addK_sh fun _ => rfl) (fun _ _ => rfl)) (fun _ _ => rfl)
  | enclose a t b =>
    exact caseR_sh (C a (.inl rfl) o) (fun s o' => caseR_sh (C t (.inr (.inl rfl)) o')
      (fun s o' => addK_sh fun _ => caseR_sh (C b (.inr (.inr rfl)) o') (fun s o' => addK_sh fun _ => rfl)
        (fun _ _ => rfl)) (fun _ _ => rfl)) (fun _ _ => rfl)
  | sepOnce a t b =>
    simp only [step]
    rw [S0]
    exact caseR_sh (C a (.inl rfl) o) (fun s o' => addK_sh fun _ => caseR_sh (C t (.inr (.inl rfl)) o')
      (fun s o' => addK_sh fun _ => caseR_sh (C b (.inr (.inr rfl)) o') (fun s o' => addK_sh fun _ => rfl)
        (fun _ _ => rfl)) (fun _ _ => rfl)) (fun _ _ => rfl)
  | or a b =>
    exact caseR_sh (C a (.inl rfl) o) (fun s o' => rfl)
      (fun _ _ => caseR_sh (C b (.inr rfl) o) (fun _ _ => rfl) (fun _ _ => rfl))
  | longest a b =>
    simp only [step]
    refine caseR_sh (C a (.inl rfl) o) (fun l o' => caseR_sh (C b (.inr rfl) o) (fun r o2 => ?_)
      (fun _ _ => ?_)) (fun _ _ => caseR_sh (C b (.inr rfl) o) (fun r o2 => ?_) (fun _ _ => rfl))
    · simp only [Span.shift, Nat.add_assoc]; split <;> rfl
    · simp [Span.shift, Nat.add_assoc]
    · simp [Span.shift, Nat.add_assoc]
  | opt q => exact caseR_sh (C q rfl o) (fun s o' => rfl) (fun _ _ => rfl)
  | choice e items => exact choiceLoop_sh e o items (fun it hit => C it.1 ⟨it, hit, rfl⟩) o
  | ltm e items => exact ltmLoop_sh e o items (fun it hit => C it.1 ⟨it, hit, rfl⟩) none o
  | rep q r => exact repLoop_sh q _ (C q rfl) (finish_sh _ _ _) fuel 0 ⟨o, 0⟩ o
  | rep2 q m n => exact repLoop_sh q _ (C q rfl) (finish_sh _ _ _) fuel 0 ⟨o, 0⟩ o
  | collect q min => exact repLoop_sh q _ (C q rfl) (finish_sh _ _ _) fuel 0 ⟨o, 0⟩ o
  | sep q s skip min =>
    exact sepLoop_sh q s skip _ (C q (.inl rfl)) (C s (.inr rfl)) (finish_sh _ _ _) fuel 0 ⟨o, 0⟩ o
  | sep2 q s skip m n =>
    exact sepLoop_sh q s skip _ (C q (.inl rfl)) (C s (.inr rfl)) (finish_sh _ _ _) fuel 0 ⟨o, 0⟩ o
  | sepCollect q s skip min =>
    exact sepLoop_sh q s skip _ (C q (.inl rfl)) (C s (.inr rfl)) (finish_sh _ _ _) fuel 0 ⟨o, 0⟩ o
  | branch t a b =>
    simp only [step]
    rw [loc pre d o]
    refine caseO_sh (fun t => caseR_sh (C _ ?_ o) (fun s o' => rfl) (fun _ _ => rfl)) (fun _ => rfl)
    cases t
    · exact .inr rfl
    · exact .inl rfl
  | map q f => exact C q rfl o
  | pat q => exact C q rfl o
  | build q f =>
    simp only [step]
    refine caseR_sh (C q (.inl rfl) o) (fun s o' => ?_) (fun _ _ => rfl)
    rw [loc pre d o' s]
    cases hf : f d o' s with
    | ok p' o2 =>
      exact caseR_sh (C p' (.inr ⟨_, _, _, _, hf⟩) o2) (fun _ _ => rfl) (fun _ _ => rfl)
    | err e o2 => rfl
    | panic => rfl
  | dthen q f => rfl
  | cell i =>
    simp only [step]
    cases hg : G i with
    | none => rfl
    | some q => exact hpr q (hl.child hg) o

/-- A policy consists of local patterns. -/
def LocalPol (G : Rules ι β) (pol : Option (Pat ι β)) : Prop := ∀ q, pol = some q → All G Local q

theorem mat_sh {pr : Option (Pat ι β) → List ι → Pat ι β → Nat → Option (Res Span)}
    {pol : Option (Pat ι β)} (hpol : LocalPol G pol) (pre d : List ι)
    (h : ∀ pol, LocalPol G pol → ∀ q, All G Local q → ∀ o,
      pr pol (pre ++ d) q (blen pre + o) = sh (blen pre) (pr pol d q o))
    (q : Pat ι β) (hq : All G Local q) (o : Nat) :
    matWith pr pol (pre ++ d) q (blen pre + o) = sh (blen pre) (matWith pr pol d q o) := by
  have h0 : LocalPol G (none : Option (Pat ι β)) := fun _ h => by cases h
  cases pol with
  | none => exact h none h0 q hq o
  | some w =>
    exact caseR_sh (h none h0 w (hpol w rfl) o) (fun _ o' => h _ hpol q hq o') (fun _ _ => rfl)

theorem parse_sh (n : Nat) (pol : Option (Pat ι β)) (hpol : LocalPol G pol) (pre d : List ι)
    (p : Pat ι β) (hp : All G Local p) (o : Nat) :
    parse G n pol (pre ++ d) p (blen pre + o) = sh (blen pre) (parse G n pol d p o) := by
  induction n generalizing pol p o with
  | zero => rfl
  | succ n ih =>
    simp only [parse]
    exact step_sh n pre d p o hp (fun q hq o => mat_sh hpol pre d (fun pol h q hq o => ih pol h q hq o) q hq o)
      (fun q hq o => ih pol hpol q hq o)

end Neure
