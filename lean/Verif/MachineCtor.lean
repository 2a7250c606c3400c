import Verif.MachineLemmas
/-!
# Building values in a build, against building values on natural numbers
-/

namespace Neure

set_option linter.unusedSectionVars false
set_option linter.unusedSimpArgs false

variable {ι β σ α : Type} [Item ι] {b : Build} {d : List ι}

/-- `SameOn` for `construct`. -/
def SameC (b : Build) (d : List ι) (o : Nat) (x y : Option (CRes σ α)) : Prop :=
  match x with
  | none => True
  | some .panic => b = .dev → y = some .panic
  | some (.ok v st o') => y = some (.ok v st o') ∧ o ≤ o' ∧ o' ≤ blen d
  | some (.err e st o') => y = some (.err e st o') ∧ o ≤ o' ∧ o' ≤ blen d

theorem SameC.mono {o o1 : Nat} (h : o1 ≤ o) {x y : Option (CRes σ α)} (hr : SameC b d o x y) :
    SameC b d o1 x y := by
  cases x with
  | none => trivial
  | some r =>
    cases r with
    | panic => exact hr
    | ok s st o' => exact ⟨hr.1, Nat.le_trans h hr.2.1, hr.2.2⟩
    | err e st o' => exact ⟨hr.1, Nat.le_trans h hr.2.1, hr.2.2⟩

theorem SameC.ok {o o' : Nat} {v : α} {st : σ} (h : o ≤ o') (h' : o' ≤ blen d) :
    SameC b d o (some (.ok v st o')) (some (.ok v st o')) := ⟨rfl, h, h'⟩

theorem SameC.err {o o' : Nat} {e : Error} {st : σ} (h : o ≤ o') (h' : o' ≤ blen d) :
    SameC (α := α) b d o (some (.err e st o')) (some (.err e st o')) := ⟨rfl, h, h'⟩

theorem same_caseC {γ : Type} {o o1 : Nat} {x y : Option (CRes σ α)}
    {k k' : α → σ → Nat → Option (CRes σ γ)} {ke ke' : Error → σ → Nat → Option (CRes σ γ)}
    (hx : SameC b d o1 x y)
    (hk : ∀ v st o', o1 ≤ o' → o' ≤ blen d → SameC b d o (k v st o') (k' v st o'))
    (he : ∀ e st o', o1 ≤ o' → o' ≤ blen d → SameC b d o (ke e st o') (ke' e st o')) :
    SameC b d o (caseC x k ke) (caseC y k' ke') := by
  cases x with
  | none => trivial
  | some r =>
    cases r with
    | panic => intro hb; rw [hx hb]; rfl
    | ok v st o' => rw [hx.1]; exact hk v st o' hx.2.1 hx.2.2
    | err e st o' => rw [hx.1]; exact he e st o' hx.2.1 hx.2.2

theorem same_caseM {γ : Type} {o o1 : Nat} {x y : Option (Res Span)}
    {k k' : Span → Nat → Option (CRes σ γ)} {ke ke' : Error → Nat → Option (CRes σ γ)}
    (hx : SameOn b d o1 x y)
    (hk : ∀ s o', Within d o1 (.ok s o') → SameC b d o (k s o') (k' s o'))
    (he : ∀ e o', o1 ≤ o' → o' ≤ blen d → SameC b d o (ke e o') (ke' e o')) :
    SameC b d o (caseM x k ke) (caseM y k' ke') := by
  cases x with
  | none => trivial
  | some r =>
    cases r with
    | panic => intro hb; rw [hx hb]; rfl
    | ok s o' => rw [hx.1]; exact hk s o' hx.2
    | err e o' => rw [hx.1]; exact he e o' hx.2.1 hx.2.2

theorem same_caseC_eq {γ : Type} {o o1 : Nat} {x y : Option (CRes σ α)}
    {k k' : α → σ → Nat → Option (CRes σ γ)} {ke ke' : Error → σ → Nat → Option (CRes σ γ)}
    (hx : SameC b d o1 x y)
    (hk : ∀ v st o', x = some (.ok v st o') → o1 ≤ o' → o' ≤ blen d → SameC b d o (k v st o') (k' v st o'))
    (he : ∀ e st o', o1 ≤ o' → o' ≤ blen d → SameC b d o (ke e st o') (ke' e st o')) :
    SameC b d o (caseC x k ke) (caseC y k' ke') := by
  cases x with
  | none => trivial
  | some r =>
    cases r with
    | panic => intro hb; rw [hx hb]; rfl
    | ok v st o' => rw [hx.1]; exact hk v st o' rfl hx.2.1 hx.2.2
    | err e st o' => rw [hx.1]; exact he e st o' hx.2.1 hx.2.2

theorem same_caseM_eq {γ : Type} {o o1 : Nat} {x y : Option (Res Span)}
    {k k' : Span → Nat → Option (CRes σ γ)} {ke ke' : Error → Nat → Option (CRes σ γ)}
    (hx : SameOn b d o1 x y)
    (hk : ∀ s o', x = some (.ok s o') → Within d o1 (.ok s o') → SameC b d o (k s o') (k' s o'))
    (he : ∀ e o', o1 ≤ o' → o' ≤ blen d → SameC b d o (ke e o') (ke' e o')) :
    SameC b d o (caseM x k ke) (caseM y k' ke') := by
  cases x with
  | none => trivial
  | some r =>
    cases r with
    | panic => intro hb; rw [hx hb]; rfl
    | ok s o' => rw [hx.1]; exact hk s o' rfl hx.2
    | err e o' => rw [hx.1]; exact he e o' hx.2.1 hx.2.2

theorem same_caseT {γ : Type} {o : Nat} {r : Out α} {k k' : α → Option (CRes σ γ)}
    {ke ke' : Error → Option (CRes σ γ)} (hk : ∀ a, SameC b d o (k a) (k' a))
    (he : ∀ e, SameC b d o (ke e) (ke' e)) : SameC b d o (caseT r k ke) (caseT r k' ke') := by
  cases r with
  | panic => intro _; rfl
  | ok a => exact hk a
  | err e => exact he e

/-- Two handlers do the same with spans inside texts. -/
def HandlerSame (H H' : Handler ι β σ) : Prop :=
  ∀ (d : List ι) o (s : Span) st, blen d ≤ isizeMax → s.beg + s.len ≤ blen d → H d o s st = H' d o s st

theorem same_invoke {H H' : Handler ι β σ} (hH : HandlerSame H H') (hd : blen d ≤ isizeMax) {o : Nat} {st : σ}
    {x y : Option (Res Span)} (hx : SameOn b d o x y) : SameC b d o (invokeK H d st x) (invokeK H' d st y) := by
  refine same_caseM hx (fun s o' hs => ?_) fun e o' h1 h2 => .err h1 h2
  rw [hH d o' s st hd hs.2.1]
  split
  · exact .ok hs.2.2.1 hs.2.2.2
  · exact .err hs.2.2.1 hs.2.2.2
  · intro _; rfl

section Loops

variable {cn cn' : Pat ι β → σ → Nat → Option (CRes σ (Val β))} {ms ms' : Nat → Option (Res Span)}

/-- Attempts to build `p` agree wherever they start. -/
def SameCon (b : Build) (d : List ι) (cn cn' : Pat ι β → σ → Nat → Option (CRes σ (Val β)))
    (p : Pat ι β) : Prop := ∀ st o, o ≤ blen d → SameC b d o (cn p st o) (cn' p st o)

theorem same_choice {e : Error} {beg : Nat} (hb : beg ≤ blen d) :
    ∀ (items : List (Pat ι β × Option (Val β))) (st : σ) (o : Nat), beg ≤ o → o ≤ blen d →
      (∀ it ∈ items, SameCon b d cn cn' it.1) →
      SameC b d beg (conChoice cn e beg items st o) (conChoice cn' e beg items st o)
  | [], st, o, h1, h2, _ => .err h1 h2
  | it :: items, st, o, h1, h2, h =>
    same_caseC (h it (by simp) st o h2) (fun v st1 o1 h3 h4 => .ok (Nat.le_trans h1 h3) h4)
      fun _ st1 _ _ _ => same_choice hb items st1 beg (Nat.le_refl _) hb fun i hi => h i (by simp [hi])

theorem same_ltm {e : Error} {beg : Nat} (hb : beg ≤ blen d) :
    ∀ (items : List (Pat ι β × Option (Val β))) (best : Option (Val β)) (stop : Nat) (st : σ) (o : Nat),
      beg ≤ o → o ≤ blen d → (∀ it ∈ items, SameCon b d cn cn' it.1) →
      SameC b d beg (conLtm cn e beg items best stop st o) (conLtm cn' e beg items best stop st o)
  | [], none, stop, st, o, h1, h2, _ => .err h1 h2
  | [], some v, stop, st, o, h1, h2, _ => .ok h1 h2
  | it :: items, best, stop, st, o, h1, h2, h => by
    unfold conLtm
    refine same_caseC (h it (by simp) st beg hb) (fun v st1 o1 h3 h4 => ?_) fun _ st1 o1 h3 h4 =>
      same_ltm hb items _ _ st1 o1 h3 h4 fun i hi => h i (by simp [hi])
    split
    · exact same_ltm hb items _ _ st1 o1 h3 h4 fun i hi => h i (by simp [hi])
    · exact same_ltm hb items _ _ st1 o1 h3 h4 fun i hi => h i (by simp [hi])

theorem same_finish {ok : Nat → Bool} {e : Error} {beg cnt o : Nat} {wrap : List (Val β) → Val β}
    {vals : List (Val β)} {st : σ} (hb : beg ≤ blen d) (h1 : beg ≤ o) (h2 : o ≤ blen d) :
    SameC b d beg (conFinish ok e beg wrap cnt vals st o) (conFinish ok e beg wrap cnt vals st o) := by
  unfold conFinish
  split
  · exact .ok h1 h2
  · exact .err (Nat.le_refl _) hb

theorem count_fits {γ : Type} {cnt : Nat} (h : cnt + 1 < wordSize) (k : Nat → Option (CRes σ γ)) :
    countK b cnt k = k (cnt + 1) := by
  unfold countK
  rw [Build.add_fits h]

/-- Counting while building: there is not enough fuel for the counter to overflow, or the
loop condition bounds it, or the loop is without bounds and there is no state that could end
an iteration that does not move. -/
def CountOkC (σ : Type) (more room : Nat → Bool) (fuel cnt o : Nat) : Prop :=
  cnt + fuel < wordSize ∨ (∀ c, more c = true → c + 1 < wordSize) ∨
    (Subsingleton σ ∧ (∀ c, more c = true) ∧ (∀ c, room c = true) ∧ cnt ≤ o)

theorem CountOkC.fits {more room : Nat → Bool} {fuel cnt o : Nat} (hd : blen d ≤ isizeMax)
    (ho : o ≤ blen d) (h : CountOkC σ more room (fuel + 1) cnt o) (hm : more cnt = true) :
    cnt + 1 < wordSize := by
  have hw := wordSize_eq
  have hi := isizeMax_eq
  rcases h with h | h | h
  · omega
  · exact h cnt hm
  · have := h.2.2.2
    omega

/-- A repetition without state that does not move never ends. -/
theorem conRep_stuck [Subsingleton σ] {p : Pat ι β} {more room : Nat → Bool}
    {fin : Nat → List (Val β) → σ → Nat → Option (CRes σ (Val β))} (hmore : ∀ c, more c = true)
    (hroom : ∀ c, room c = true) {v : Val β} {st : σ} {o : Nat} (h : cn p st o = some (.ok v st o)) :
    ∀ (fuel cnt : Nat) (vals : List (Val β)), conRep cn p more room fin fuel cnt vals st o = none
  | 0, _, _ => rfl
  | fuel + 1, cnt, vals => by
    simp only [conRep, hmore, hroom, if_true, h, caseC]
    exact conRep_stuck hmore hroom h fuel (cnt + 1) _

theorem same_rep {p : Pat ι β} {more room ok : Nat → Bool} {e : Error} {beg : Nat}
    {wrap : List (Val β) → Val β} (hd : blen d ≤ isizeMax) (hb : beg ≤ blen d) (hp : SameCon b d cn cn' p) :
    ∀ (fuel cnt : Nat) (vals : List (Val β)) (st : σ) (o : Nat), CountOkC σ more room fuel cnt o →
      beg ≤ o → o ≤ blen d →
      SameC b d beg (conRep cn p more room (conFinish ok e beg wrap) fuel cnt vals st o)
        (conRepM b cn' p more room (conFinish ok e beg wrap) fuel cnt vals st o)
  | 0, _, _, _, _, _, _, _ => trivial
  | fuel + 1, cnt, vals, st, o, hc, h1, h2 => by
    simp only [conRep, conRepM]
    split
    · next hm =>
      refine same_caseC_eq (hp st o h2) (fun v st1 o1 hx h3 h4 => ?_) fun _ st1 o1 h3 h4 =>
        same_finish hb (Nat.le_trans h1 h3) h4
      split
      · rw [count_fits (hc.fits hd h2 hm)]
        have hgo : CountOkC σ more room fuel (cnt + 1) o1 → _ := fun hc' =>
          same_rep (ok := ok) (e := e) (wrap := wrap) hd hb hp fuel (cnt + 1) (vals ++ [v]) st1 o1 hc'
            (Nat.le_trans h1 h3) h4
        rcases hc with hc | hc | ⟨hσ, hall, hroom, hle⟩
        · exact hgo (.inl (by omega))
        · exact hgo (.inr (.inl hc))
        · rcases Nat.lt_or_eq_of_le h3 with hlt | heq
          · exact hgo (.inr (.inr ⟨hσ, hall, hroom, by omega⟩))
          · subst heq
            cases Subsingleton.elim st1 st
            rw [conRep_stuck hall hroom hx]
            trivial
      · intro _; rfl
    · exact same_finish hb h1 h2

/-- `Separate` does not count: both sides run the same loop. -/
theorem same_sep0 {p : Pat ι β} {skip : Bool} {more room ok : Nat → Bool} {e : Error} {beg : Nat}
    {wrap : List (Val β) → Val β} (hb : beg ≤ blen d) (hp : SameCon b d cn cn' p)
    (hs : ∀ o, o ≤ blen d → SameOn b d o (ms o) (ms' o)) :
    ∀ (fuel cnt : Nat) (vals : List (Val β)) (st : σ) (o : Nat), beg ≤ o → o ≤ blen d →
      SameC b d beg (conSep cn ms p skip more room (conFinish ok e beg wrap) fuel cnt vals st o)
        (conSep cn' ms' p skip more room (conFinish ok e beg wrap) fuel cnt vals st o)
  | 0, _, _, _, _, _, _ => trivial
  | fuel + 1, cnt, vals, st, o, h1, h2 => by
    simp only [conSep]
    split
    · refine same_caseC (hp st o h2) (fun v st1 o1 h3 h4 => ?_) fun _ st1 o1 h3 h4 =>
        same_finish hb (Nat.le_trans h1 h3) h4
      refine same_caseM (hs o1 h4) (fun s o2 hw => ?_) fun _ o2 h5 h6 => ?_
      · split
        · exact same_sep0 hb hp hs fuel (cnt + 1) _ st1 o2 (Nat.le_trans h1 (Nat.le_trans h3 hw.2.2.1)) hw.2.2.2
        · intro _; rfl
      · split
        · split
          · exact same_finish hb (Nat.le_trans h1 (Nat.le_trans h3 h5)) h6
          · intro _; rfl
        · exact same_finish hb (Nat.le_trans h1 (Nat.le_trans h3 h5)) h6
    · exact same_finish hb h1 h2

theorem same_sep {p : Pat ι β} {skip : Bool} {more room ok : Nat → Bool} {e : Error} {beg : Nat}
    {wrap : List (Val β) → Val β} (hb : beg ≤ blen d) (hp : SameCon b d cn cn' p)
    (hs : ∀ o, o ≤ blen d → SameOn b d o (ms o) (ms' o)) (hc : ∀ c, more c = true → c + 1 < wordSize) :
    ∀ (fuel cnt : Nat) (vals : List (Val β)) (st : σ) (o : Nat), beg ≤ o → o ≤ blen d →
      SameC b d beg (conSep cn ms p skip more room (conFinish ok e beg wrap) fuel cnt vals st o)
        (conSepM b cn' ms' p skip more room (conFinish ok e beg wrap) fuel cnt vals st o)
  | 0, _, _, _, _, _, _ => trivial
  | fuel + 1, cnt, vals, st, o, h1, h2 => by
    simp only [conSep, conSepM]
    split
    · next hm =>
      refine same_caseC (hp st o h2) (fun v st1 o1 h3 h4 => ?_) fun _ st1 o1 h3 h4 =>
        same_finish hb (Nat.le_trans h1 h3) h4
      refine same_caseM (hs o1 h4) (fun s o2 hw => ?_) fun _ o2 h5 h6 => ?_
      · split
        · rw [count_fits (hc cnt hm)]
          exact same_sep hb hp hs hc fuel (cnt + 1) _ st1 o2
            (Nat.le_trans h1 (Nat.le_trans h3 hw.2.2.1)) hw.2.2.2
        · intro _; rfl
      · split
        · split
          · rw [count_fits (hc cnt hm)]
            exact same_finish hb (Nat.le_trans h1 (Nat.le_trans h3 h5)) h6
          · intro _; rfl
        · exact same_finish hb (Nat.le_trans h1 (Nat.le_trans h3 h5)) h6
    · exact same_finish hb h1 h2

/-- A separated list without state that does not move never ends. -/
theorem conSepCollect_stuck [Subsingleton σ] {p : Pat ι β} {skip : Bool}
    {fin : Nat → List (Val β) → σ → Nat → Option (CRes σ (Val β))} {v : Val β} {st : σ} {o o1 : Nat} {s : Span}
    (h : cn p st o = some (.ok v st o1)) (h' : ms o1 = some (.ok s o)) :
    ∀ (fuel cnt : Nat) (vals : List (Val β)), conSepCollect cn ms p skip fin fuel false cnt vals st o = none
  | 0, _, _ => rfl
  | fuel + 1, cnt, vals => by
    simp only [conSepCollect, h, h', caseC, caseM, Bool.false_eq_true, if_false]
    exact conSepCollect_stuck h h' fuel (cnt + 1) _

theorem same_sepCollect {p : Pat ι β} {skip : Bool} {ok : Nat → Bool} {e : Error} {beg : Nat}
    {wrap : List (Val β) → Val β} (hd : blen d ≤ isizeMax) (hb : beg ≤ blen d) (hp : SameCon b d cn cn' p)
    (hs : ∀ o, o ≤ blen d → SameOn b d o (ms o) (ms' o)) :
    ∀ (fuel : Nat) (ended : Bool) (cnt : Nat) (vals : List (Val β)) (st : σ) (o : Nat),
      ended = true ∨ CountOkC σ (fun _ => true) (fun _ => true) fuel cnt o →
      beg ≤ o → o ≤ blen d →
      SameC b d beg (conSepCollect cn ms p skip (conFinish ok e beg wrap) fuel ended cnt vals st o)
        (conSepCollectM b cn' ms' p skip (conFinish ok e beg wrap) fuel ended cnt vals st o)
  | 0, _, _, _, _, _, _, _, _ => trivial
  | fuel + 1, ended, cnt, vals, st, o, hc, h1, h2 => by
    simp only [conSepCollect, conSepCollectM]
    refine same_caseC_eq (hp st o h2) (fun v st1 o1 hx h3 h4 => ?_) fun _ st1 o1 h3 h4 =>
      same_finish hb (Nat.le_trans h1 h3) h4
    refine same_caseM_eq (hs o1 h4) (fun s o2 hy hw => ?_) fun _ o2 h5 h6 => ?_
    · have h7 : beg ≤ o2 := Nat.le_trans h1 (Nat.le_trans h3 hw.2.2.1)
      split
      · exact same_finish hb h7 hw.2.2.2
      · next hend =>
        replace hc := hc.resolve_left hend
        rw [count_fits (hc.fits hd h2 rfl)]
        have hgo : CountOkC σ (fun _ => true) (fun _ => true) fuel (cnt + 1) o2 → _ := fun hc' =>
          same_sepCollect (skip := skip) (ok := ok) (e := e) (wrap := wrap) hd hb hp hs fuel false (cnt + 1)
            (vals ++ [v]) st1 o2 (.inr hc') h7 hw.2.2.2
        rcases hc with hc | hc | ⟨hσ, hall, hroom, hle⟩
        · exact hgo (.inl (by omega))
        · exact hgo (.inr (.inl hc))
        · rcases Nat.lt_or_eq_of_le (Nat.le_trans h3 hw.2.2.1) with hlt | heq
          · exact hgo (.inr (.inr ⟨hσ, hall, hroom, by omega⟩))
          · subst heq
            cases Subsingleton.elim st1 st
            rw [conSepCollect_stuck hx hy]
            trivial
    · have h7 : beg ≤ o2 := Nat.le_trans h1 (Nat.le_trans h3 h5)
      split
      · exact same_finish hb h7 h6
      · next hend =>
        replace hc := hc.resolve_left hend
        split
        · rw [count_fits (hc.fits hd h2 rfl)]
          exact same_sepCollect hd hb hp hs fuel true (cnt + 1) _ st1 o2 (.inl rfl) h7 h6
        · exact same_finish hb h7 h6

end Loops

variable {G : Rules ι β} {H H' : Handler ι β σ}

theorem same_conStep {fuel : Nat} (hf : fuel < wordSize ∨ Subsingleton σ) {mt mt' : Pat ι β → Nat → Option (Res Span)}
    {leaf leaf' : Option (Res Span)} {cn cn' : Pat ι β → σ → Nat → Option (CRes σ (Val β))}
    (hH : HandlerSame H H') (hd : blen d ≤ isizeMax) {p : Pat ι β} (hp : All G FitsWord p)
    (hmt : ∀ q, All G FitsWord q → SameAll b d mt mt' q)
    (hcn : ∀ q, All G FitsWord q → SameCon b d cn cn' q) (st : σ) (o : Nat) (ho : o ≤ blen d)
    (hl : SameOn b d o leaf leaf') :
    SameC b d o (conStep G H fuel mt leaf cn d p st o) (conStepM b G H' fuel mt' leaf' cn' d p st o) := by
  have hself := hp.self
  have herr : ∀ e (st : σ), SameC (α := Val β) b d o (some (.err e st o)) (some (.err e st o)) :=
    fun e st => .err (Nat.le_refl _) ho
  have hm : ∀ q, Child G q p → SameAll b d mt mt' q := fun q hq => hmt q (hp.child hq)
  have hc : ∀ q, Child G q p → SameCon b d cn cn' q := fun q hq => hcn q (hp.child hq)
  have tr : ∀ {a b c : Nat}, a ≤ b → b ≤ c → a ≤ c := fun h h' => Nat.le_trans h h'
  cases p with
  | empty | fail | start | anchorEnd | consume _ | consumeAll | lit _ | native _
  | once _ _ | many1 _ _ | optU _ _ | many0 _ _ | between _ _ _ _ | times _ _ _
  | thenU _ _ _ | assert _ _ | build _ _ => exact same_invoke hH hd hl
  | pat q => exact same_invoke hH hd (hm q rfl o ho)
  | thn x y =>
    refine same_caseC (hc x (.inl rfl) st o ho) (fun v1 st1 o1 h1 h2 => ?_) fun e st1 _ _ _ => herr e st1
    exact same_caseC (hc y (.inr rfl) st1 o1 h2) (fun v2 st2 o2 h3 h4 => .ok (tr h1 h3) h4)
      fun e st2 _ _ _ => herr e st2
  | ifThen x t y =>
    refine same_caseC (hc x (.inl rfl) st o ho) (fun v1 st1 o1 h1 h2 => ?_) fun e st1 _ _ _ => herr e st1
    refine same_caseM (hm t (.inr (.inl rfl)) o1 h2) (fun s o2 hw => ?_) fun _ _ _ _ => .ok h1 h2
    exact same_caseC (hc y (.inr (.inr rfl)) st1 o2 hw.2.2.2)
      (fun v2 st2 o3 h3 h4 => .ok (tr h1 (tr hw.2.2.1 h3)) h4) fun e st2 _ _ _ => herr e st2
  | pre x y =>
    refine same_caseM (hm x (.inl rfl) o ho) (fun s o1 hw => ?_) fun e _ _ _ => herr e st
    exact same_caseC (hc y (.inr rfl) st o1 hw.2.2.2) (fun v st1 o2 h3 h4 => .ok (tr hw.2.2.1 h3) h4)
      fun e st1 _ _ _ => herr e st1
  | suf x y =>
    refine same_caseC (hc x (.inl rfl) st o ho) (fun v1 st1 o1 h1 h2 => ?_) fun e st1 _ _ _ => herr e st1
    exact same_caseM (hm y (.inr rfl) o1 h2) (fun s o2 hw => .ok (tr h1 hw.2.2.1) hw.2.2.2)
      fun e _ _ _ => herr e st1
  | enclose x y z =>
    refine same_caseM (hm x (.inl rfl) o ho) (fun s o1 hw => ?_) fun e _ _ _ => herr e st
    refine same_caseC (hc y (.inr (.inl rfl)) st o1 hw.2.2.2) (fun v st1 o2 h3 h4 => ?_)
      fun e st1 _ _ _ => herr e st1
    exact same_caseM (hm z (.inr (.inr rfl)) o2 h4)
      (fun s o3 hw' => .ok (tr hw.2.2.1 (tr h3 hw'.2.2.1)) hw'.2.2.2) fun e _ _ _ => herr e st1
  | sepOnce x y z =>
    refine same_caseC (hc x (.inl rfl) st o ho) (fun v1 st1 o1 h1 h2 => ?_) fun e st1 _ _ _ => herr e st1
    refine same_caseM (hm y (.inr (.inl rfl)) o1 h2) (fun s o2 hw => ?_) fun e _ _ _ => herr e st1
    exact same_caseC (hc z (.inr (.inr rfl)) st1 o2 hw.2.2.2)
      (fun v2 st2 o3 h3 h4 => .ok (tr h1 (tr hw.2.2.1 h3)) h4) fun e st2 _ _ _ => herr e st2
  | or x y =>
    refine same_caseC (hc x (.inl rfl) st o ho) (fun v1 st1 o1 h1 h2 => .ok h1 h2) fun e st1 _ _ _ => ?_
    exact same_caseC (hc y (.inr rfl) st1 o ho) (fun v1 st1 o1 h1 h2 => .ok h1 h2) fun e st2 _ _ _ => herr e st2
  | longest x y =>
    refine same_caseC (hc x (.inl rfl) st o ho) (fun l st1 oL h1 h2 => ?_) fun e st1 _ _ _ => ?_
    · refine same_caseC (hc y (.inr rfl) st1 o ho) (fun r st2 oR h3 h4 => ?_) fun e st2 _ _ _ => .ok h1 h2
      split
      · exact .ok h1 h2
      · exact .ok h3 h4
    · exact same_caseC (hc y (.inr rfl) st1 o ho) (fun r st2 oR h3 h4 => .ok h3 h4) fun e st2 _ _ _ => herr e st2
  | opt q =>
    exact same_caseC (hc q rfl st o ho) (fun v1 st1 o1 h1 h2 => .ok h1 h2) fun e st1 _ _ _ =>
      .ok (Nat.le_refl _) ho
  | choice e items =>
    exact same_choice ho items st o (Nat.le_refl _) ho fun it hit => hc it.1 ⟨it, hit, rfl⟩
  | ltm e items =>
    exact same_ltm ho items none o st o (Nat.le_refl _) ho fun it hit => hc it.1 ⟨it, hit, rfl⟩
  | rep q r =>
    refine same_rep hd ho (hc q rfl) fuel 0 [] st o ?_ (Nat.le_refl _) ho
    rcases more_small hself o with h | h
    · exact .inr (.inl h)
    · exact hf.elim (fun hf => .inl (by omega)) fun hf => .inr (.inr ⟨hf, h.1, fun _ => rfl, Nat.zero_le _⟩)
  | rep2 q m n =>
    refine same_rep hd ho (hc q rfl) fuel 0 [] st o (.inr (.inl fun c hc => ?_)) (Nat.le_refl _) ho
    have hw := wordSize_eq
    simp only [FitsWord] at hself
    simp only [decide_eq_true_eq] at hc
    omega
  | collect q min =>
    exact same_rep hd ho (hc q rfl) fuel 0 [] st o (hf.elim (fun hf => .inl (by omega)) fun hf =>
      .inr (.inr ⟨hf, fun _ => rfl, fun _ => rfl, Nat.zero_le _⟩)) (Nat.le_refl _) ho
  | sep q s skip min =>
    exact same_sep0 ho (hc q (.inl rfl)) (hm s (.inr rfl)) fuel 0 [] st o (Nat.le_refl _) ho
  | sep2 q s skip m n =>
    refine same_sep ho (hc q (.inl rfl)) (hm s (.inr rfl)) (fun c hc => ?_) fuel 0 [] st o (Nat.le_refl _) ho
    have hw := wordSize_eq
    simp only [FitsWord] at hself
    simp only [decide_eq_true_eq] at hc
    omega
  | sepCollect q s skip min =>
    exact same_sepCollect hd ho (hc q (.inl rfl)) (hm s (.inr rfl)) fuel false 0 [] st o
      (.inr (hf.elim (fun hf => .inl (by omega)) fun hf =>
        .inr (.inr ⟨hf, fun _ => rfl, fun _ => rfl, Nat.zero_le _⟩))) (Nat.le_refl _) ho
  | branch test x y =>
    refine same_caseT (fun t => ?_) fun e => herr e st
    refine same_caseC (hc _ ?_ st o ho) (fun v1 st1 o1 h1 h2 => .ok h1 h2) fun e st1 _ _ _ => herr e st1
    cases t
    · exact .inr rfl
    · exact .inl rfl
  | map q f =>
    exact same_caseC (hc q rfl st o ho)
      (fun v st1 o1 h1 h2 => same_caseT (fun w => .ok h1 h2) fun e => .err h1 h2)
      fun e st1 o1 h1 h2 => .err h1 h2
  | dthen q f =>
    refine same_caseC (hc q (.inl rfl) st o ho) (fun v1 st1 o1 h1 h2 => ?_) fun e st1 _ _ _ => herr e st1
    have hfd := hself d o1 v1 h2
    cases hfe : f d o1 v1 with
    | panic => intro _; rfl
    | err e o2 =>
      rw [hfe] at hfd
      exact .err (tr h1 hfd.1) hfd.2
    | ok p' o2 =>
      rw [hfe] at hfd
      have hch : Child G p' (.dthen q f) := .inr ⟨d, o1, v1, o2, hfe⟩
      exact same_caseC (hc p' hch st1 o2 hfd.2) (fun v2 st2 o3 h3 h4 => .ok (tr h1 (tr hfd.1 h3)) h4)
        fun e st2 _ _ _ => herr e st2
  | cell i =>
    simp only [conStep, conStepM]
    cases hg : G i with
    | none => exact herr _ st
    | some q => exact hc q hg st o ho

theorem same_con {pol : Option (Pat ι β)} (hpol : FitsWordPol G pol) (hH : HandlerSame H H')
    (hd : blen d ≤ isizeMax) :
    ∀ (n : Nat), n ≤ wordSize ∨ Subsingleton σ → ∀ (p : Pat ι β), All G FitsWord p → ∀ (st : σ) o, o ≤ blen d →
      SameC b d o (con G H n pol d p st o) (conM b G H' n pol d p st o)
  | 0, _, _, _, _, _, _ => trivial
  | n + 1, hn, p, hp, st, o, ho =>
    same_conStep (hn.imp (by omega) id) hH hd hp
      (fun q hq o ho => agree_tryMat n hpol hd hq ho)
      (fun q hq st o ho => same_con hpol hH hd n (hn.imp (by omega) id) q hq st o ho) st o ho
      (agree_tryMat (n + 1) hpol hd hp ho)

/-- The handler of `ctor` reads the same slices in every build. -/
theorem extract_same (b : Build) : HandlerSame (σ := σ) (extractH (ι := ι)) (extractM b) := by
  intro d o s st hd hs
  have hw := wordSize_eq
  have hi := isizeMax_eq
  unfold extractH extractM
  rw [origSubM_eq (by omega)]

end Neure
