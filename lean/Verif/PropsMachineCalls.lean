import Verif.MachineCalls
import Verif.MachineMono
import Verif.MachineLemmas
import Verif.FindLemmas
import Verif.Demo
/-!
# C87 for the methods of a context

Every call on a context (`set_offset`, `inc`, `dec`, `orig_sub`, `orig_at`, `peek`,
`try_mat`, `is_mat`, `try_assert`, `try_mat_policy`, `find`), and every sequence of
such calls, answers in every build what the model on natural numbers answers.
-/

namespace Neure

set_option linter.unusedSectionVars false
set_option linter.unusedSimpArgs false

open Demo

variable {ι β : Type} [Item ι] {b : Build} {G : Rules ι β} {pol : Option (Pat ι β)} {d : List ι}

/-! ## Specification -/

/-- The numbers of a call made at offset `o` fit: offsets are inside the text wherever it is
read, and sums are below `2^64`. -/
def CtxCall.Fits (G : Rules ι β) (d : List ι) (o : Nat) : CtxCall ι β → Prop
  | .setOffset _ => True
  | .inc k => o + k < 2 ^ 64
  | .dec k => k ≤ o
  | .origSub beg len => beg + len < 2 ^ 64
  | .origAt beg => beg ≤ blen d
  | .peek => o ≤ blen d
  | .tryMat p | .isMat p | .tryAssert p | .find p => o ≤ blen d ∧ All G FitsWord p
  | .policy p before after =>
    o ≤ blen d ∧ All G FitsWord p ∧ All G FitsWord before ∧ All G FitsWord after

/-- An outcome as an answer. -/
def TellsOut {α : Type} (f : α → CtxAnswer ι) (r : Out α) (a : CtxAnswer ι) : Prop :=
  (∃ x, r = .ok x ∧ a = f x) ∨ ∃ e, r = .err e ∧ a = .error e

/-- What a call at offset `o` answers, and the offset after it, on natural numbers: the
definitions of `Data.lean`, `Match.lean` and `Find.lean` which all the other properties are
about. -/
def CallAnswers (G : Rules ι β) (pol : Option (Pat ι β)) (d : List ι) (c : CtxCall ι β) (o : Nat)
    (a : CtxAnswer ι) (o' : Nat) : Prop :=
  match c with
  | .setOffset k => a = .unit ∧ o' = k
  | .inc k => a = .unit ∧ o' = o + k
  | .dec k => a = .unit ∧ o' = o - k
  | .origSub beg len => TellsOut .text (origSub d beg len) a ∧ o' = o
  | .origAt beg => TellsOut .text (origAt d beg) a ∧ o' = o
  | .peek => TellsOut .items (peek d o) a ∧ o' = o
  | .tryMat p => (∃ s, Runs G pol d p o (.ok s o') ∧ a = .span s) ∨
      ∃ e, Runs G pol d p o (.err e o') ∧ a = .error e
  | .isMat p => (∃ s, Runs G pol d p o (.ok s o') ∧ a = .bool true) ∨
      ∃ e, Runs G pol d p o (.err e o') ∧ a = .bool false
  | .tryAssert p => ((∃ s o1, Runs G pol d p o (.ok s o1) ∧ a = .bool true) ∨
      ∃ e o1, Runs G pol d p o (.err e o1) ∧ a = .bool false) ∧ o' = o
  | .policy p before after => (∃ s n, tryMatPolicy G pol d p before after n o = some (.ok s o') ∧ a = .span s) ∨
      ∃ e n, tryMatPolicy G pol d p before after n o = some (.err e o') ∧ a = .error e
  | .find p => ∃ l, Finds G pol d p .slice o (.ok l o') ∧ a = .found l

/-- A sequence of calls, the answers, and the offset after the last, on natural numbers;
the numbers of each call fit. -/
inductive CallSession (G : Rules ι β) (pol : Option (Pat ι β)) (d : List ι) :
    List (CtxCall ι β) → Nat → List (CtxAnswer ι) → Nat → Prop
  | done (o : Nat) : CallSession G pol d [] o [] o
  | call {c : CtxCall ι β} {cs : List (CtxCall ι β)} {o o1 o2 : Nat} {a : CtxAnswer ι}
      {l : List (CtxAnswer ι)} : c.Fits G d o → CallAnswers G pol d c o a o1 → CallSession G pol d cs o1 l o2 →
      CallSession G pol d (c :: cs) o (a :: l) o2

/-! ## Fuel -/

theorem findM_le {mt mt' : Nat → Option (Res Span)} (hm : ∀ o, Le (mt o) (mt' o)) (n m : Nat) (hnm : n ≤ m)
    (o : Nat) : Le (findM b mt d n o) (findM b mt' d m o) := by
  induction n generalizing m o with
  | zero => exact Le.none _
  | succ n ih =>
    obtain ⟨m, rfl⟩ : ∃ k, m = k + 1 := ⟨m - 1, by omega⟩
    have hl : ∀ o, Le (findM b mt d n o) (findM b mt' d m o) := fun o => ih m (by omega) o
    simp only [findM]
    refine ite_le (caseR_le (hm o) (fun s o' => ?_) (fun e o' => ?_)) (Le.refl _)
    · refine ite_le ?_ (opK_le fun _ => hl _)
      cases origSubM b d s.beg s.len with
      | ok a => exact Le.refl _
      | err e => exact hl _
      | panic => exact Le.refl _
    · exact opK_le fun _ => hl _

theorem parseM_mono (pol : Option (Pat ι β)) (d : List ι) (p : Pat ι β) (o : Nat) :
    Mono fun n => parseM b G n pol d p o := by
  intro n m h
  induction h with
  | refl => exact Le.refl _
  | step _ ih => exact fun x hx => parseM_le _ pol d p o _ (ih x hx)

theorem callM_mono (c : CtxCall ι β) (o : Nat) : Mono fun n => callM b G pol d n c o := by
  intro n m h
  have ht : ∀ p o, Le (tryMatM b G n pol d p o) (tryMatM b G m pol d p o) :=
    fun p o => tryMatM_mono pol d p o n m h
  have hp : ∀ p o, Le (parseM b G n pol d p o) (parseM b G m pol d p o) :=
    fun p o => parseM_mono pol d p o n m h
  cases c with
  | tryMat p => exact caseR_le (ht p o) (fun _ _ => Le.refl _) (fun _ _ => Le.refl _)
  | isMat p => exact caseR_le (ht p o) (fun _ _ => Le.refl _) (fun _ _ => Le.refl _)
  | tryAssert p => exact caseR_le (ht p o) (fun _ _ => Le.refl _) (fun _ _ => Le.refl _)
  | policy p before after =>
    exact caseR_le (caseR_le (hp _ _) (fun _ _ => caseR_le (hp _ _) (fun _ _ => caseR_le (hp _ _)
      (fun _ _ => Le.refl _) (fun _ _ => Le.refl _)) (fun _ _ => Le.refl _)) (fun _ _ => Le.refl _))
      (fun _ _ => Le.refl _) (fun _ _ => Le.refl _)
  | find p => exact caseR_le (findM_le (fun o => ht p o) n m h o) (fun _ _ => Le.refl _) (fun _ _ => Le.refl _)
  | _ => exact Le.refl _

theorem sessionM_mono : ∀ (cs : List (CtxCall ι β)) (o : Nat), Mono fun n => sessionM b G pol d n cs o
  | [], _ => fun _ _ _ => Le.refl _
  | c :: cs, o => fun n m h => caseR_le (callM_mono c o n m h)
      (fun _ o1 => caseR_le (sessionM_mono cs o1 n m h) (fun _ _ => Le.refl _) (fun _ _ => Le.refl _))
      (fun _ _ => Le.refl _)

theorem SessionOn.unique {cs : List (CtxCall ι β)} {o : Nat} {r r' : Res (List (CtxAnswer ι))}
    (h : SessionOn b G pol d cs o r) (h' : SessionOn b G pol d cs o r') : r = r' := by
  obtain ⟨n, hn⟩ := h
  obtain ⟨m, hm⟩ := h'
  have h1 := sessionM_mono cs o n (max n m) (Nat.le_max_left _ _) _ hn
  have h2 := sessionM_mono cs o m (max n m) (Nat.le_max_right _ _) _ hm
  simp only at h1 h2
  rw [h1] at h2; exact Option.some.inj h2

/-! ## Agreement -/

theorem findM_agree {mt mt' : Nat → Option (Res Span)} (hd : blen d ≤ isizeMax)
    (hm : ∀ o, o ≤ blen d → SameOn b d o (mt o) (mt' o)) {fuel o : Nat} {l : Option (List ι)} {o' : Nat}
    (h : findLoop mt (blen d) findProc ((Extract.slice : Extract ι (List ι)).invoke d) fuel o = some (.ok l o')) :
    findM b mt' d fuel o = some (.ok l o') := by
  induction fuel generalizing o with
  | zero => simp [findLoop] at h
  | succ fuel ih =>
    have hw : ∀ x, x ≤ blen d → b.add x 1 = some (x + 1) := fun x hx =>
      Build.add_fits (by rw [wordSize_eq]; rw [isizeMax_eq] at hd; omega)
    simp only [findLoop] at h
    simp only [findM]
    by_cases ho : o < blen d
    · rw [if_pos ho] at h ⊢
      have hs := hm o (by omega)
      cases hx : mt o with
      | none => rw [hx] at h; cases h
      | some v =>
        rw [hx] at h hs
        cases v with
        | panic => cases h
        | err e o1 =>
          have hin : o1 ≤ blen d := hs.2.2
          rw [hs.1]
          simp only [caseR, findBody, findProc] at h ⊢
          rw [hw o1 hin]
          exact ih h
        | ok s o1 =>
          obtain ⟨he, hin⟩ := hs
          simp only [Within] at hin
          rw [he]
          simp only [caseR, findBody, findProc] at h ⊢
          by_cases hz : s.len ≠ 0
          · rw [if_pos hz] at h ⊢
            rw [origSubM_eq (by rw [wordSize_eq]; rw [isizeMax_eq] at hd; omega)]
            simp only [Extract.invoke] at h
            cases hsub : origSub d s.beg s.len with
            | ok a => rw [hsub] at h; exact h
            | err e => rw [hsub] at h; exact ih h
            | panic => rw [hsub] at h; cases h
          · rw [if_neg hz] at h ⊢
            rw [hw o1 (by omega)]
            exact ih h
    · rw [if_neg ho] at h ⊢; exact h

theorem tellsOut_answerO {α : Type} {f : α → CtxAnswer ι} {r : Out α} {a : CtxAnswer ι} {o : Nat}
    (h : TellsOut f r a) : answerO o f r = some (.ok a o) := by
  rcases h with ⟨x, rfl, rfl⟩ | ⟨e, rfl, rfl⟩ <;> rfl

theorem callM_agree (hpol : FitsWordPol G pol) (hd : blen d ≤ isizeMax) {c : CtxCall ι β} {o o' : Nat}
    {a : CtxAnswer ι} (hf : c.Fits G d o) (h : CallAnswers G pol d c o a o') :
    ∃ n, callM b G pol d n c o = some (.ok a o') := by
  have hw : ∀ {x}, x < 2 ^ 64 → x < wordSize := fun h => h
  cases c with
  | setOffset k => obtain ⟨rfl, rfl⟩ := h; exact ⟨0, rfl⟩
  | inc k =>
    obtain ⟨rfl, rfl⟩ := h
    exact ⟨0, by simp only [callM]; rw [Build.add_fits (hw hf)]; rfl⟩
  | dec k =>
    obtain ⟨rfl, rfl⟩ := h
    exact ⟨0, by simp only [callM]; rw [Build.sub_fits hf]; rfl⟩
  | origSub beg len =>
    obtain ⟨h, rfl⟩ := h
    exact ⟨0, by simp only [callM]; rw [origSubM_eq (hw hf)]; exact tellsOut_answerO h⟩
  | origAt beg =>
    obtain ⟨h, rfl⟩ := h
    exact ⟨0, by simp only [callM]; rw [origAtM_eq hd hf]; exact tellsOut_answerO h⟩
  | peek =>
    obtain ⟨h, rfl⟩ := h
    exact ⟨0, by simp only [callM]; rw [peekM_eq hd hf]; exact tellsOut_answerO h⟩
  | tryMat p =>
    rcases h with ⟨s, ⟨n, hn⟩, rfl⟩ | ⟨e, ⟨n, hn⟩, rfl⟩ <;>
    · have := agree_tryMat (b := b) n hpol hd hf.2 hf.1
      rw [hn] at this
      exact ⟨n, by simp only [callM]; rw [this.1]; rfl⟩
  | isMat p =>
    rcases h with ⟨s, ⟨n, hn⟩, rfl⟩ | ⟨e, ⟨n, hn⟩, rfl⟩ <;>
    · have := agree_tryMat (b := b) n hpol hd hf.2 hf.1
      rw [hn] at this
      exact ⟨n, by simp only [callM]; rw [this.1]; rfl⟩
  | tryAssert p =>
    obtain ⟨h, rfl⟩ := h
    rcases h with ⟨s, o1, ⟨n, hn⟩, rfl⟩ | ⟨e, o1, ⟨n, hn⟩, rfl⟩ <;>
    · have := agree_tryMat (b := b) n hpol hd hf.2 hf.1
      rw [hn] at this
      exact ⟨n, by simp only [callM]; rw [this.1]; rfl⟩
  | policy p before after =>
    have key : ∀ n, SameOn b d o (tryMatPolicy G pol d p before after n o)
        (caseR (parseM b G n pol d before o)
          (fun _ o1 => caseR (parseM b G n pol d p o1)
            (fun s o2 => caseR (parseM b G n pol d after o2) (fun _ o3 => some (.ok s o3))
              (fun e o3 => some (.err e o3)))
            (fun e o2 => some (.err e o2)))
          (fun e o1 => some (.err e o1))) := by
      intro n
      refine agree_caseR (agree_parse n pol hpol d hd before hf.2.2.1 o hf.1) (fun s1 o1 _ w1 => ?_) (fun e o1 w1 => ?_)
      · simp only [Within] at w1
        refine agree_caseR (agree_parse n pol hpol d hd p hf.2.1 o1 (by omega)) (fun s2 o2 _ w2 => ?_)
          (fun e o2 w2 => ?_)
        · simp only [Within] at w2
          refine agree_caseR (agree_parse n pol hpol d hd after hf.2.2.2 o2 (by omega)) (fun s3 o3 _ w3 => ?_)
            (fun e o3 w3 => ?_)
          · simp only [Within] at w3
            exact SameOn.ok (by simp only [Within]; omega)
          · simp only [Within] at w3
            exact SameOn.err (by omega) (by omega)
        · simp only [Within] at w2
          exact SameOn.err (by omega) (by omega)
      · simp only [Within] at w1
        exact SameOn.err (by omega) (by omega)
    rcases h with ⟨s, n, hn, rfl⟩ | ⟨e, n, hn, rfl⟩ <;>
    · have := key n
      rw [hn] at this
      exact ⟨n, by simp only [callM]; rw [this.1]; rfl⟩
  | find p =>
    obtain ⟨l, ⟨n, hn⟩, rfl⟩ := h
    have := findM_agree (b := b) (mt' := tryMatM b G n pol d p) hd
      (fun o ho => agree_tryMat n hpol hd hf.2 ho) hn
    exact ⟨n, by simp only [callM]; rw [this]; rfl⟩

/-- **C87** What a sequence of calls on a context answers on natural numbers, it answers in
every build, and nothing else: the same answers in the same order, the same offset after the
last call, no panic. -/
theorem C87_session (hpol : FitsWordPol G pol) (hd : blen d ≤ isizeMax) {cs : List (CtxCall ι β)}
    {o o' : Nat} {l : List (CtxAnswer ι)} (h : CallSession G pol d cs o l o') (b : Build)
    (r : Res (List (CtxAnswer ι))) : SessionOn b G pol d cs o r ↔ r = .ok l o' := by
  have key : SessionOn b G pol d cs o (.ok l o') := by
    induction h with
    | done o => exact ⟨0, rfl⟩
    | @call c cs o o1 o2 a l hf ha _ ih =>
      obtain ⟨n, hn⟩ := callM_agree (b := b) hpol hd hf ha
      obtain ⟨m, hm⟩ := ih
      have h1 := callM_mono c o n (max n m) (Nat.le_max_left _ _) _ hn
      have h2 := sessionM_mono cs o1 m (max n m) (Nat.le_max_right _ _) _ hm
      refine ⟨max n m, ?_⟩
      simp only at h1 h2
      simp only [sessionM, h1, caseR, h2]
  exact ⟨fun hr => hr.unique key, fun hr => hr ▸ key⟩

/-- Six calls, one after the other, in any build. -/
example (b : Build) : SessionOn b G0 none ['a', 'b', 'a', 'c']
    ([.inc 2, .dec 1, .find (.lit ['a']), .isMat (.lit ['b']), .tryAssert (.lit ['c']), .peek] :
      List (CtxCall Char Nat)) 0
    (.ok [.unit, .unit, .found (some ['a']), .bool false, .bool true, .items [(0, 'c')]] 3) := by
  have hl : ∀ c : Char, All G0 FitsWord (.lit [c] : Pat Char Nat) := fun c => all_lit trivial
  refine (C87_session (l := [.unit, .unit, .found (some ['a']), .bool false, .bool true, .items [(0, 'c')]])
    (o' := 3) (fun _ h => by cases h) (by decide) ?_ b _).2 rfl
  refine .call (o1 := 2) (by simp [CtxCall.Fits]) ⟨rfl, rfl⟩ ?_
  refine .call (o1 := 1) (by simp [CtxCall.Fits]) ⟨rfl, rfl⟩ ?_
  refine .call (o1 := 3) ⟨by decide, hl 'a'⟩ ⟨some ['a'], ⟨5, by decide⟩, rfl⟩ ?_
  refine .call (o1 := 3) ⟨by decide, hl 'b'⟩ (.inr ⟨_, ⟨1, rfl⟩, rfl⟩) ?_
  refine .call (o1 := 3) ⟨by decide, hl 'c'⟩ ⟨.inl ⟨_, _, ⟨1, rfl⟩, rfl⟩, rfl⟩ ?_
  exact .call (o1 := 3) (by simp [CtxCall.Fits]; decide) ⟨.inl ⟨_, rfl, rfl⟩, rfl⟩ (.done 3)

end Neure
