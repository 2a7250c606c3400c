import Verif.PropsFindTrace
/-!
# C91: the recorded attempts are all the attempts

`C91_tries` bounds the attempts that are recorded.  Here they are said to be exactly the
attempts a search makes: `TriesAt` lists them one after the other.
-/

namespace Neure

set_option linter.unusedSectionVars false
set_option linter.unusedSimpArgs false

open Demo

variable {ι β α : Type} [Item ι] {G : Rules ι β} {pol : Option (Pat ι β)} {d : List ι} {p : Pat ι β}

/-! ## Specification -/

/-- One search from a position: what it returns and the positions where the pattern is tried.  `next o'` is where the search goes on
when the attempt matched nothing and left the position at `o'`. -/
inductive TriesAt (G : Rules ι β) (pol : Option (Pat ι β)) (d : List ι) (p : Pat ι β) (x : Extract ι α) (next : Nat → Nat) :
    Nat → Res (Option α) → List Nat → Prop where
  | atEnd {o : Nat} : blen d ≤ o → TriesAt G pol d p x next o (.ok none o) []
  | crash {o : Nat} : o < blen d → Runs G pol d p o .panic → TriesAt G pol d p x next o .panic [o]
  | fail {o o' : Nat} {e : Error} {r : Res (Option α)} {l : List Nat} : o < blen d → Runs G pol d p o (.err e o') →
      TriesAt G pol d p x next (next o') r l → TriesAt G pol d p x next o r (o :: l)
  | empty {o o' : Nat} {s : Span} {r : Res (Option α)} {l : List Nat} : o < blen d → Runs G pol d p o (.ok s o') →
      s.len = 0 → TriesAt G pol d p x next (next o') r l → TriesAt G pol d p x next o r (o :: l)
  | found {o o' : Nat} {s : Span} {a : α} : o < blen d → Runs G pol d p o (.ok s o') → s.len ≠ 0 →
      x.invoke d s = .ok a → TriesAt G pol d p x next o (.ok (some a) o') [o]
  | unread {o o' : Nat} {s : Span} {e : Error} {r : Res (Option α)} {l : List Nat} : o < blen d →
      Runs G pol d p o (.ok s o') → s.len ≠ 0 → x.invoke d s = .err e →
      TriesAt G pol d p x next o' r l → TriesAt G pol d p x next o r (o :: l)
  | unreadCrash {o o' : Nat} {s : Span} : o < blen d → Runs G pol d p o (.ok s o') → s.len ≠ 0 →
      x.invoke d s = .panic → TriesAt G pol d p x next o .panic [o]

/-- The same for the searches one after the other, until one finds nothing. -/
inductive AllTries (G : Rules ι β) (pol : Option (Pat ι β)) (d : List ι) (p : Pat ι β) (x : Extract ι α) (next : Nat → Nat) :
    Nat → Res (List α) → List Nat → Prop where
  | none {o o' : Nat} {l : List Nat} : TriesAt G pol d p x next o (.ok none o') l →
      AllTries G pol d p x next o (.ok [] o') l
  | crash {o : Nat} {l : List Nat} : TriesAt G pol d p x next o .panic l →
      AllTries G pol d p x next o .panic l
  | more {o o' o'' : Nat} {a : α} {as : List α} {l l' : List Nat} : TriesAt G pol d p x next o (.ok (some a) o') l →
      AllTries G pol d p x next o' (.ok as o'') l' → AllTries G pol d p x next o (.ok (a :: as) o'') (l ++ l')
  | later {o o' : Nat} {a : α} {l l' : List Nat} : TriesAt G pol d p x next o (.ok (some a) o') l →
      AllTries G pol d p x next o' .panic l' → AllTries G pol d p x next o .panic (l ++ l')

namespace Trying

/-! ## Lemmas -/

/-- What the closures of `find` and `match_seq` have in common. -/
def Goes (func : Processor) (next : Nat → Nat) : Prop :=
  (∀ e o, func (.error e) o = (none, next o)) ∧
    ∀ s o, func (.ok s) o = if s.len ≠ 0 then (some s, o) else (none, next o)

theorem goes_find : Goes findProc (· + 1) := ⟨fun _ _ => rfl, fun _ _ => rfl⟩
theorem goes_seq (len : Nat) : Goes (seqProc len) (fun _ => len) := ⟨fun _ _ => rfl, fun _ _ => rfl⟩

theorem findLoopT_le {mt mt' : Nat → Option (Res Span)} (hm : ∀ o v, mt o = some v → mt' o = some v) (len : Nat)
    (func : Processor) (h : Span → Out α) (k k' : Nat) (hk : k ≤ k') (o : Nat) (v : Res (Option α) × List Nat)
    (hv : findLoopT mt len func h k o = some v) : findLoopT mt' len func h k' o = some v := by
  induction k generalizing k' o v with
  | zero => cases hv
  | succ k ih =>
    obtain ⟨k', rfl⟩ : ∃ j, k' = j + 1 := ⟨k' - 1, by omega⟩
    have body : ∀ ret o' v, findBodyT func h (findLoopT mt len func h k) ret o' = some v →
        findBodyT func h (findLoopT mt' len func h k') ret o' = some v := by
      intro ret o' v hb
      unfold findBodyT at hb ⊢
      rcases hf : func ret o' with ⟨_ | s, o2⟩
      · rw [hf] at hb; exact ih k' (by omega) _ _ hb
      · rw [hf] at hb
        dsimp only at hb ⊢
        cases hs : h s with
        | ok a => rw [hs] at hb; exact hb
        | err e => rw [hs] at hb; exact ih k' (by omega) _ _ hb
        | panic => rw [hs] at hb; exact hb
    simp only [findLoopT] at hv ⊢
    split
    · next ho =>
      rw [if_pos ho] at hv
      cases hmo : mt o with
      | none => rw [hmo] at hv; cases hv
      | some r =>
        rw [hmo] at hv
        rw [hm o r hmo]
        cases r with
        | panic => exact hv
        | ok s o' =>
          dsimp only at hv ⊢
          obtain ⟨w, hw, rfl⟩ := Option.map_eq_some_iff.mp hv
          rw [body _ _ _ hw]; rfl
        | err e o' =>
          dsimp only at hv ⊢
          obtain ⟨w, hw, rfl⟩ := Option.map_eq_some_iff.mp hv
          rw [body _ _ _ hw]; rfl
    · next ho => rw [if_neg ho] at hv; exact hv

theorem tryMat_up {N M : Nat} (h : N ≤ M) (o : Nat) (v : Res Span) (hv : tryMat G N pol d p o = some v) :
    tryMat G M pol d p o = some v := tryMat_mono G pol d p o N M h v hv

theorem of_loop {x : Extract ι α} {func : Processor} {next : Nat → Nat} (hg : Goes func next) (N k o : Nat)
    (r : Res (Option α)) (l : List Nat)
    (h : findLoopT (tryMat G N pol d p) (blen d) func (x.invoke d) k o = some (r, l)) :
    TriesAt G pol d p x next o r l := by
  induction k generalizing o r l with
  | zero => cases h
  | succ k ih =>
    simp only [findLoopT] at h
    split at h
    · next ho =>
      cases hm : tryMat G N pol d p o with
      | none => rw [hm] at h; cases h
      | some v =>
        rw [hm] at h
        cases v with
        | panic => cases h; exact .crash ho ⟨N, hm⟩
        | err e o' =>
          dsimp only at h
          obtain ⟨⟨r1, l1⟩, hw, he⟩ := Option.map_eq_some_iff.mp h
          cases he
          unfold findBodyT at hw
          rw [hg.1] at hw
          exact .fail ho ⟨N, hm⟩ (ih _ _ _ hw)
        | ok s o' =>
          dsimp only at h
          obtain ⟨⟨r1, l1⟩, hw, he⟩ := Option.map_eq_some_iff.mp h
          cases he
          unfold findBodyT at hw
          rw [hg.2] at hw
          by_cases hs : s.len = 0
          · rw [if_neg (by simp [hs])] at hw
            exact .empty ho ⟨N, hm⟩ hs (ih _ _ _ hw)
          · rw [if_pos hs] at hw
            dsimp only at hw
            cases hx : x.invoke d s with
            | ok a => rw [hx] at hw; cases hw; exact .found ho ⟨N, hm⟩ hs hx
            | err e => rw [hx] at hw; exact .unread ho ⟨N, hm⟩ hs hx (ih _ _ _ hw)
            | panic => rw [hx] at hw; cases hw; exact .unreadCrash ho ⟨N, hm⟩ hs hx
    · next ho => cases h; exact .atEnd (by omega)

theorem to_loop {x : Extract ι α} {func : Processor} {next : Nat → Nat} (hg : Goes func next) {o : Nat}
    {r : Res (Option α)} {l : List Nat} (h : TriesAt G pol d p x next o r l) :
    ∃ n, findLoopT (tryMat G n pol d p) (blen d) func (x.invoke d) n o = some (r, l) := by
  have up : ∀ {N n m : Nat} {o : Nat} {v : Res (Option α) × List Nat}, N ≤ m → n ≤ m →
      findLoopT (tryMat G N pol d p) (blen d) func (x.invoke d) n o = some v →
      findLoopT (tryMat G (m + 1) pol d p) (blen d) func (x.invoke d) m o = some v :=
    fun hN hn hv => findLoopT_le (fun o v => tryMat_up (by omega) o v) _ _ _ _ _ hn _ _ hv
  induction h with
  | atEnd ho => exact ⟨1, by simp only [findLoopT]; rw [if_neg (by omega)]⟩
  | crash ho hr =>
    obtain ⟨n, hr⟩ := hr
    refine ⟨n + 1, ?_⟩
    simp only [findLoopT]
    rw [if_pos ho, tryMat_up (Nat.le_succ n) _ _ hr]
  | fail ho hr _ ih =>
    obtain ⟨n, hr⟩ := hr
    obtain ⟨m, hm⟩ := ih
    refine ⟨n + m + 1, ?_⟩
    simp only [findLoopT]
    rw [if_pos ho, tryMat_up (by omega) _ _ hr]
    dsimp only
    unfold findBodyT
    rw [hg.1]
    dsimp only
    rw [up (m := n + m) (by omega) (by omega) hm]; rfl
  | empty ho hr hs _ ih =>
    obtain ⟨n, hr⟩ := hr
    obtain ⟨m, hm⟩ := ih
    refine ⟨n + m + 1, ?_⟩
    simp only [findLoopT]
    rw [if_pos ho, tryMat_up (by omega) _ _ hr]
    dsimp only
    unfold findBodyT
    rw [hg.2, if_neg (by simp [hs])]
    dsimp only
    rw [up (m := n + m) (by omega) (by omega) hm]; rfl
  | found ho hr hs hx =>
    obtain ⟨n, hr⟩ := hr
    refine ⟨n + 1, ?_⟩
    simp only [findLoopT]
    rw [if_pos ho, tryMat_up (by omega) _ _ hr]
    dsimp only
    unfold findBodyT
    rw [hg.2, if_pos hs]
    dsimp only
    rw [hx]; rfl
  | unread ho hr hs hx _ ih =>
    obtain ⟨n, hr⟩ := hr
    obtain ⟨m, hm⟩ := ih
    refine ⟨n + m + 1, ?_⟩
    simp only [findLoopT]
    rw [if_pos ho, tryMat_up (by omega) _ _ hr]
    dsimp only
    unfold findBodyT
    rw [hg.2, if_pos hs]
    dsimp only
    rw [hx]
    dsimp only
    rw [up (m := n + m) (by omega) (by omega) hm]; rfl
  | unreadCrash ho hr hs hx =>
    obtain ⟨n, hr⟩ := hr
    refine ⟨n + 1, ?_⟩
    simp only [findLoopT]
    rw [if_pos ho, tryMat_up (by omega) _ _ hr]
    dsimp only
    unfold findBodyT
    rw [hg.2, if_pos hs]
    dsimp only
    rw [hx]; rfl

/-- A search does not return an error. -/
theorem no_error {x : Extract ι α} {next : Nat → Nat} {o o' : Nat} {e : Error} {l : List Nat} :
    ¬ TriesAt G pol d p x next o (.err e o') l := by
  generalize hr : Res.err e o' = r
  intro h
  induction h with
  | fail _ _ _ ih => exact ih hr
  | empty _ _ _ _ ih => exact ih hr
  | unread _ _ _ _ _ ih => exact ih hr
  | _ => cases hr

theorem drainT_le {nx nx' : Nat → Option (Res (Option α) × List Nat)} (hn : ∀ o v, nx o = some v → nx' o = some v)
    (k k' : Nat) (hk : k ≤ k') (o : Nat) (v : Res (List α) × List Nat) (hv : drainT nx k o = some v) :
    drainT nx' k' o = some v := by
  induction k generalizing k' o v with
  | zero => cases hv
  | succ k ih =>
    obtain ⟨k', rfl⟩ : ∃ j, k' = j + 1 := ⟨k' - 1, by omega⟩
    simp only [drainT] at hv ⊢
    cases ho : nx o with
    | none => rw [ho] at hv; cases hv
    | some w =>
      rw [ho] at hv
      rw [hn o w ho]
      rcases w with ⟨⟨_ | a, o'⟩ | ⟨e, o'⟩ | _, l⟩
      · exact hv
      · dsimp only at hv ⊢
        cases hd : drainT nx k o' with
        | none => rw [hd] at hv; cases hv
        | some y => rw [hd] at hv; rw [ih k' (by omega) _ _ hd]; exact hv
      · exact hv
      · exact hv

theorem of_drain {x : Extract ι α} {func : Processor} {next : Nat → Nat} (hg : Goes func next) (N M k o : Nat)
    (r : Res (List α)) (l : List Nat)
    (h : drainT (findLoopT (tryMat G N pol d p) (blen d) func (x.invoke d) M) k o = some (r, l)) :
    AllTries G pol d p x next o r l := by
  induction k generalizing o r l with
  | zero => cases h
  | succ k ih =>
    simp only [drainT] at h
    rcases ho : findLoopT (tryMat G N pol d p) (blen d) func (x.invoke d) M o with _ | ⟨⟨_ | a, o'⟩ | ⟨e, o'⟩ | _, l1⟩
    · rw [ho] at h; cases h
    · rw [ho] at h; cases h; exact .none (of_loop hg _ _ _ _ _ ho)
    · rw [ho] at h
      dsimp only at h
      have h1 := of_loop hg _ _ _ _ _ ho
      rcases hd : drainT (findLoopT (tryMat G N pol d p) (blen d) func (x.invoke d) M) k o' with
        _ | ⟨⟨as, o''⟩ | ⟨e, o''⟩ | _, l2⟩
      · rw [hd] at h; cases h
      · rw [hd] at h; cases h; exact .more h1 (ih _ _ _ hd)
      · have h2 := ih _ _ _ hd
        cases h2
      · rw [hd] at h; cases h; exact .later h1 (ih _ _ _ hd)
    · exact absurd (of_loop hg _ _ _ _ _ ho) no_error
    · rw [ho] at h; cases h; exact .crash (of_loop hg _ _ _ _ _ ho)

theorem to_drain {x : Extract ι α} {func : Processor} {next : Nat → Nat} (hg : Goes func next) {o : Nat}
    {r : Res (List α)} {l : List Nat} (h : AllTries G pol d p x next o r l) :
    ∃ n, drainT (findLoopT (tryMat G n pol d p) (blen d) func (x.invoke d) n) n o = some (r, l) := by
  have up : ∀ {n m : Nat} (o : Nat) (v : Res (Option α) × List Nat), n ≤ m →
      findLoopT (tryMat G n pol d p) (blen d) func (x.invoke d) n o = some v →
      findLoopT (tryMat G m pol d p) (blen d) func (x.invoke d) m o = some v :=
    fun o v hn hv => findLoopT_le (fun o v => tryMat_up hn o v) _ _ _ _ _ hn _ _ hv
  induction h with
  | none h1 =>
    obtain ⟨n, hn⟩ := to_loop hg h1
    refine ⟨n + 1, ?_⟩
    simp only [drainT]; rw [up _ _ (Nat.le_succ n) hn]
  | crash h1 =>
    obtain ⟨n, hn⟩ := to_loop hg h1
    refine ⟨n + 1, ?_⟩
    simp only [drainT]; rw [up _ _ (Nat.le_succ n) hn]
  | more h1 _ ih =>
    obtain ⟨n, hn⟩ := to_loop hg h1
    obtain ⟨m, hm⟩ := ih
    refine ⟨n + m + 1, ?_⟩
    simp only [drainT]
    rw [up _ _ (by omega : n ≤ n + m + 1) hn]
    dsimp only
    rw [drainT_le (fun o v => up o v (by omega : m ≤ n + m + 1)) m (n + m) (by omega) _ _ hm]
  | later h1 _ ih =>
    obtain ⟨n, hn⟩ := to_loop hg h1
    obtain ⟨m, hm⟩ := ih
    refine ⟨n + m + 1, ?_⟩
    simp only [drainT]
    rw [up _ _ (by omega : n ≤ n + m + 1) hn]
    dsimp only
    rw [drainT_le (fun o v => up o v (by omega : m ≤ n + m + 1)) m (n + m) (by omega) _ _ hm]

end Trying

open Trying

/-! ## The property -/

/-- **C91 (all attempts).** The positions recorded are all the positions where the search tries the pattern, in order: after an attempt
that matched nothing `find` and `find_all` go on one behind the position the attempt left and `match_seq` goes to the end;
an attempt that panics is the last. -/
theorem C91_all_attempts (x : Extract ι α) (o : Nat) (l : List Nat) :
    (∀ r, FindsTrying G pol d p x o r l ↔ TriesAt G pol d p x (· + 1) o r l) ∧
    (∀ r, FindsAllTrying G pol d p x o r l ↔ AllTries G pol d p x (· + 1) o r l) ∧
    (∀ r, MatchSeqTrying G pol d p x o r l ↔ AllTries G pol d p x (fun _ => blen d) o r l) :=
  ⟨fun _ => ⟨fun ⟨n, h⟩ => of_loop goes_find n n _ _ _ h, fun h => to_loop goes_find h⟩,
    fun _ => ⟨fun ⟨n, h⟩ => of_drain goes_find n n n _ _ _ h, fun h => to_drain goes_find h⟩,
    fun _ => ⟨fun ⟨n, h⟩ => of_drain (goes_seq _) n n n _ _ _ h, fun h => to_drain (goes_seq _) h⟩⟩

/-- A pattern that panics at its first attempt: that attempt is recorded. -/
example : FindsTrying (β := Nat) G0 none ['a'] (.native fun _ _ => .panic) .span 0 .panic [0] :=
  ((C91_all_attempts .span 0 [0]).1 _).mpr (.crash (by decide) ⟨9, rfl⟩)

/-- `b` in `ab`: the attempts at 0 and at 1, and no more. -/
example : ∀ l, FindsTrying (β := Nat) G0 none ['a', 'b'] (.lit ['b']) .span 0 (.ok (some ⟨1, 1⟩) 2) l → l.length = 2 := by
  intro l h
  have h0 : Runs (β := Nat) G0 none ['a', 'b'] (.lit ['b']) 0 (.err .literal 0) := ⟨9, by decide⟩
  have h1 : Runs (β := Nat) G0 none ['a', 'b'] (.lit ['b']) 1 (.ok ⟨1, 1⟩ 2) := ⟨9, by decide⟩
  cases ((C91_all_attempts .span 0 l).1 _).mp h with
  | fail _ hr h =>
    cases hr.unique h0
    cases h with
    | fail _ hr _ => cases hr.unique h1
    | empty _ hr hs _ => cases hr.unique h1; cases hs
    | found _ hr _ _ => rfl
    | unread _ hr _ hx _ => cases hx
  | empty _ hr _ _ => cases hr.unique h0
  | found _ hr _ _ => cases hr.unique h0
  | unread _ hr _ _ _ => cases hr.unique h0

end Neure
