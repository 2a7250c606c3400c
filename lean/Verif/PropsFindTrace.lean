import Verif.FindTrace
import Verif.PropsFind
import Verif.PropsWork
/-!
# C91: a search tries every position at most once
-/

namespace Neure

set_option linter.unusedSectionVars false
set_option linter.unusedSimpArgs false

open Demo

variable {ι β α : Type} [Item ι] {G : Rules ι β} {pol : Option (Pat ι β)} {d : List ι} {p : Pat ι β}

/-! ## Recording changes nothing -/

theorem findLoopT_fst (mt : Nat → Option (Res Span)) (len : Nat) (func : Processor) (h : Span → Out α) (n o : Nat) :
    (findLoopT mt len func h n o).map (·.1) = findLoop mt len func h n o := by
  induction n generalizing o with
  | zero => rfl
  | succ n ih =>
    have body : ∀ ret o', ((findBodyT func h (findLoopT mt len func h n) ret o').map fun x => (x.1, o :: x.2)).map (·.1) =
        findBody func h (findLoop mt len func h n) ret o' := by
      intro ret o'
      rw [Option.map_map]
      unfold findBodyT findBody
      rcases func ret o' with ⟨_ | s, o2⟩
      · exact ih _
      · dsimp only
        cases h s
        · rfl
        · exact ih _
        · rfl
    simp only [findLoopT, findLoop]
    split
    · cases mt o with
      | none => rfl
      | some v =>
        cases v with
        | ok s o' => exact body _ _
        | err e o' => exact body _ _
        | panic => rfl
    · rfl

theorem drainT_fst (next : Nat → Option (Res (Option α) × List Nat)) (k o : Nat) :
    (drainT next k o).map (·.1) = drain (fun o => (next o).map (·.1)) k o := by
  induction k generalizing o with
  | zero => rfl
  | succ k ih =>
    simp only [drainT, drain]
    rcases next o with _ | ⟨_ | _ | _, l⟩
    · rfl
    · rename_i a o'
      cases a with
      | none => rfl
      | some a =>
        simp only [Option.map_some, caseR]
        rw [← ih o']
        rcases drainT next k o' with _ | ⟨_ | _ | _, l'⟩ <;> rfl
    · rfl
    · rfl

theorem recorded {γ : Type} {x : Nat → Option (γ × List Nat)} {y : Nat → Option γ} (h : ∀ n, (x n).map (·.1) = y n) (r : γ) :
    (∃ n, y n = some r) ↔ ∃ l n, x n = some (r, l) := by
  constructor
  · rintro ⟨n, hn⟩
    rw [← h n, Option.map_eq_some_iff] at hn
    obtain ⟨⟨r', l⟩, h1, h2⟩ := hn
    cases h2
    exact ⟨l, n, h1⟩
  · rintro ⟨l, n, hn⟩
    exact ⟨n, by rw [← h n, hn]; rfl⟩

/-- **C91 (recording).** The searches that record where `try_mat` is called are the searches. -/
theorem C91_recording (x : Extract ι α) (o : Nat) :
    (∀ r, Finds G pol d p x o r ↔ ∃ l, FindsTrying G pol d p x o r l) ∧
    (∀ r, FindsAll G pol d p x o r ↔ ∃ l, FindsAllTrying G pol d p x o r l) ∧
    (∀ r, MatchSeqs G pol d p x o r ↔ ∃ l, MatchSeqTrying G pol d p x o r l) :=
  ⟨fun r => recorded (fun n => findLoopT_fst _ _ _ _ n o) r,
    fun r => recorded (fun n => by rw [drainT_fst]; simp only [findLoopT_fst]; rfl) r,
    fun r => recorded (fun n => by rw [drainT_fst]; simp only [findLoopT_fst]; rfl) r⟩

/-! ## Every position at most once -/

theorem Climbs.length_le {l : List Nat} {o b : Nat} (h : Climbs l o b) : l.length ≤ b - o := by
  induction l generalizing o with
  | nil => simp
  | cons j l ih =>
    obtain ⟨h1, h2⟩ := h
    rw [List.pairwise_cons] at h1
    have hj := h2 j List.mem_cons_self
    have := ih (o := j + 1) ⟨h1.2, fun k hk => ⟨h1.1 k hk, (h2 k (List.mem_cons_of_mem _ hk)).2⟩⟩
    simp only [List.length_cons]; omega

theorem Climbs.cons {l : List Nat} {j o b o' : Nat} (h : Climbs l o' b) (h1 : o ≤ j) (h2 : j < o') (h3 : j < b) :
    Climbs (j :: l) o b :=
  ⟨List.pairwise_cons.mpr ⟨fun k hk => by have := (h.2 k hk).1; omega, h.1⟩, fun k hk => by
    rcases List.mem_cons.mp hk with rfl | hk
    · exact ⟨h1, h3⟩
    · have := h.2 k hk; omega⟩

theorem Climbs.append {l l' : List Nat} {o o' b : Nat} (h : Climbs l o b) (hl : ∀ j ∈ l, j < o') (h' : Climbs l' o' b)
    (ho : o ≤ o') : Climbs (l ++ l') o b :=
  ⟨List.pairwise_append.mpr ⟨h.1, h'.1, fun a ha b hb => by have := hl a ha; have := (h'.2 b hb).1; omega⟩, fun k hk => by
    rcases List.mem_append.mp hk with hk | hk
    · exact h.2 k hk
    · have := h'.2 k hk; omega⟩

/-- A processor that moves on: what it reports stays where the match ended, what it does not
report is passed by at least one. -/
def MovesOn (func : Processor) (len : Nat) : Prop :=
  ∀ ret o, o ≤ len → match func ret o with
    | (none, o2) => o < o2 ∨ len ≤ o2
    | (some s, o2) => ret = .ok s ∧ s.len ≠ 0 ∧ o2 = o

/-- What is to be shown of one search: the attempts climb, each returned, and a hit ends behind them. -/
def SearchPost (G : Rules ι β) (pol : Option (Pat ι β)) (d : List ι) (p : Pat ι β) (o : Nat)
    (x : Res (Option α) × List Nat) : Prop :=
  Climbs x.2 o (blen d) ∧ (∀ j ∈ x.2, ∃ r, Runs G pol d p j r) ∧
    ∀ a o', x.1 = .ok (some a) o' → o < o' ∧ o' ≤ blen d ∧ ∀ j ∈ x.2, j < o'

theorem search_post (hpol : SafePol G pol) (hp : All G (Safe G pol) p) {func : Processor} (hf : MovesOn func (blen d))
    {h : Span → Out α} (n m o : Nat) : Sat (findLoopT (tryMat G m pol d p) (blen d) func h n o) (SearchPost G pol d p o) := by
  induction n generalizing o with
  | zero => exact Sat.none
  | succ n ih =>
    intro x hx
    simp only [findLoopT] at hx
    split at hx
    · next hlt =>
      -- the loop goes on from `o2`
      have go : ∀ o2 y, (∃ r, Runs G pol d p o r) → (o < o2 ∨ blen d ≤ o2) →
          findLoopT (tryMat G m pol d p) (blen d) func h n o2 = some y → SearchPost G pol d p o (y.1, o :: y.2) := by
        intro o2 y hr ho2 hy
        obtain ⟨h1, h2, h3⟩ := ih o2 y hy
        refine ⟨h1.cons (Nat.le_refl _) (by omega) hlt, fun j hj => ?_, fun a o' e => ?_⟩
        · rcases List.mem_cons.mp hj with rfl | hj
          · exact hr
          · exact h2 j hj
        · obtain ⟨k1, k2, k3⟩ := h3 a o' e
          refine ⟨by omega, k2, fun j hj => ?_⟩
          rcases List.mem_cons.mp hj with rfl | hj
          · omega
          · exact k3 j hj
      have body : ∀ ret o', o ≤ o' → o' ≤ blen d → (∃ r, Runs G pol d p o r) → (∀ s, ret = .ok s → s.len ≠ 0 → o < o') →
          (findBodyT func h (findLoopT (tryMat G m pol d p) (blen d) func h n) ret o').map (fun x => (x.1, o :: x.2)) = some x →
          SearchPost G pol d p o x := by
        intro ret o' h1 h1' hr h2 hx
        rw [Option.map_eq_some_iff] at hx
        obtain ⟨y, hy, rfl⟩ := hx
        have hm := hf ret o' h1'
        unfold findBodyT at hy
        split at hy
        · next o2 heq =>
          rw [heq] at hm
          exact go o2 y hr (by dsimp only at hm; omega) hy
        · next s o2 heq =>
          rw [heq] at hm
          obtain ⟨e1, e2, rfl⟩ := hm
          have := h2 s e1 e2
          split at hy
          · cases hy
            refine ⟨Climbs.cons (o' := o + 1) ⟨.nil, by simp⟩ (Nat.le_refl _) (by omega) hlt, fun j hj => ?_, fun a o' e => ?_⟩
            · simp at hj; subst hj; exact hr
            · cases e
              exact ⟨this, h1', fun j hj => by simp at hj; omega⟩
          · exact go o2 y hr (.inl this) hy
          · cases hy
            refine ⟨Climbs.cons (o' := o + 1) ⟨.nil, by simp⟩ (Nat.le_refl _) (by omega) hlt, fun j hj => ?_, fun a o' e => by cases e⟩
            simp at hj; subst hj; exact hr
      obtain ⟨f1, f2⟩ := C05_forward_and_in_bounds G pol hpol d p hp o (by omega)
      cases hv : tryMat G m pol d p o with
      | none => rw [hv] at hx; cases hx
      | some v =>
        rw [hv] at hx
        cases v with
        | ok s o' =>
          have := f1 s o' ⟨m, hv⟩
          exact body _ o' (by omega) this.2.2 ⟨_, m, hv⟩ (fun s' e hs => by cases e; omega) hx
        | err e o' =>
          have := f2 e o' ⟨m, hv⟩
          exact body _ o' this.1 this.2 ⟨_, m, hv⟩ (fun s' e hs => by cases e) hx
        | panic => exact (C04_no_panic G pol hpol d p hp o (by omega) ⟨m, hv⟩).elim
    · cases hx
      exact ⟨⟨.nil, by simp⟩, by simp, by simp⟩

theorem drain_post {next : Nat → Option (Res (Option α) × List Nat)}
    (hn : ∀ o, Sat (next o) (SearchPost G pol d p o)) (k o : Nat) :
    Sat (drainT next k o) (fun x : Res (List α) × List Nat => Climbs x.2 o (blen d) ∧ ∀ j ∈ x.2, ∃ r, Runs G pol d p j r) := by
  induction k generalizing o with
  | zero => exact Sat.none
  | succ k ih =>
    intro x hx
    simp only [drainT] at hx
    cases hv : next o with
    | none => rw [hv] at hx; cases hx
    | some v =>
      obtain ⟨h1, h2, h3⟩ := hn o v hv
      obtain ⟨v, l⟩ := v
      rw [hv] at hx
      cases v with
      | panic => cases hx; exact ⟨h1, h2⟩
      | err e o' => cases hx; exact ⟨h1, h2⟩
      | ok a o' =>
        cases a with
        | none => cases hx; exact ⟨h1, h2⟩
        | some a =>
          obtain ⟨k1, k2, k3⟩ := h3 a o' rfl
          dsimp only at hx
          cases hw : drainT next k o' with
          | none => rw [hw] at hx; cases hx
          | some w =>
            obtain ⟨g1, g2⟩ := ih o' w hw
            have : Climbs (l ++ w.2) o (blen d) ∧ ∀ j ∈ l ++ w.2, ∃ r, Runs G pol d p j r :=
              ⟨h1.append k3 g1 (by omega), fun j hj => by
                rcases List.mem_append.mp hj with hj | hj
                · exact h2 j hj
                · exact g2 j hj⟩
            obtain ⟨w, l'⟩ := w
            rw [hw] at hx
            cases w <;> cases hx <;> exact this

theorem findProc_moves (len : Nat) : MovesOn findProc len := by
  intro ret o _
  cases ret with
  | ok s =>
    by_cases h : s.len = 0
    · simp [findProc, h]
    · simp [findProc, h]
  | error e => simp [findProc]

theorem seqProc_moves (len : Nat) : MovesOn (seqProc len) len := by
  intro ret o _
  cases ret with
  | ok s =>
    by_cases h : s.len = 0
    · simp [seqProc, h]
    · simp [seqProc, h]
  | error e => simp [seqProc]

/-- **C91.** `find`, `find_all` and `match_seq`, in every context (also one that skips), try a
position at most once, go from left to right, and make at most as many attempts as there are bytes
from the start of the search to the end. -/
theorem C91_tries (hpol : SafePol G pol) (hp : All G (Safe G pol) p) (x : Extract ι α) (o : Nat) (l : List Nat) :
    (∀ r, FindsTrying G pol d p x o r l → Climbs l o (blen d) ∧ l.length ≤ blen d - o) ∧
    (∀ r, FindsAllTrying G pol d p x o r l → Climbs l o (blen d) ∧ l.length ≤ blen d - o) ∧
    (∀ r, MatchSeqTrying G pol d p x o r l → Climbs l o (blen d) ∧ l.length ≤ blen d - o) := by
  refine ⟨fun r ⟨n, hn⟩ => ?_, fun r ⟨n, hn⟩ => ?_, fun r ⟨n, hn⟩ => ?_⟩
  · have := (search_post hpol hp (findProc_moves _) n n o _ hn).1
    exact ⟨this, this.length_le⟩
  · have := (drain_post (fun o => search_post hpol hp (findProc_moves _) n n o) n o _ hn).1
    exact ⟨this, this.length_le⟩
  · have := (drain_post (fun o => search_post hpol hp (seqProc_moves _) n n o) n o _ hn).1
    exact ⟨this, this.length_le⟩

/-! ## How many calls -/

theorem totalCalls_of {e w : Nat} {l : List Nat}
    (h : ∀ j ∈ l, ∃ r o' c, RunsWork G pol d p j r o' c ∧ c ≤ e + w) : ∃ t, TotalCalls G pol d p l t ∧ t ≤ l.length * (e + w) := by
  induction l with
  | nil => exact ⟨0, .nil, by simp⟩
  | cons j l ih =>
    obtain ⟨t, h1, h2⟩ := ih fun k hk => h k (List.mem_cons_of_mem _ hk)
    obtain ⟨r, o', c, h3, h4⟩ := h j List.mem_cons_self
    refine ⟨c + t, .cons h3 h1, ?_⟩
    rw [List.length_cons, Nat.succ_mul]; omega

/-- **C91 (calls).** With the bound that C78 reads off the pattern, the calls made by draining
`find_all` or `match_seq` are at most that bound times the number of bytes searched. -/
theorem C91_calls {e L w : Nat} (hpol : SafePol G pol)
    (hskip : ∀ q, pol = some q → CallsAtMost G (SafelyEats G none) 0 L q e) (hp : All G (Safe G pol) p)
    (h : CallsAtMost G (SafelyEats G pol) e L p w) (hL : blen d ≤ L) (x : Extract ι α) (o : Nat) (l : List Nat) (r : Res (List α))
    (hr : FindsAllTrying G pol d p x o r l ∨ MatchSeqTrying G pol d p x o r l) :
    ∃ t, TotalCalls G pol d p l t ∧ t ≤ (blen d - o) * (e + w) := by
  have key : Climbs l o (blen d) ∧ ∀ j ∈ l, ∃ r, Runs G pol d p j r := by
    rcases hr with ⟨n, hn⟩ | ⟨n, hn⟩
    · exact drain_post (fun o => search_post hpol hp (findProc_moves _) n n o) n o _ hn
    · exact drain_post (fun o => search_post hpol hp (seqProc_moves _) n n o) n o _ hn
  obtain ⟨h1, h2⟩ := key
  obtain ⟨t, ht, hle⟩ := totalCalls_of (e := e) (w := w) (l := l) (G := G) (pol := pol) (d := d) (p := p) fun j hj => by
    obtain ⟨r, hr⟩ := h2 j hj
    have hj := h1.2 j hj
    have cnt := C78_counting (G := G) (pol := pol) (d := d) p j
    have bound : ∀ r o' c, RunsWork G pol d p j r o' c → c ≤ e + w := fun r o' c hc =>
      C78_calls_safe hpol hskip hp h hL (by omega) hc
    cases r with
    | ok s o' =>
      obtain ⟨c, hc⟩ := (cnt.1 s o').mp hr
      exact ⟨_, _, c, hc, bound _ _ _ hc⟩
    | err e o' =>
      obtain ⟨c, hc⟩ := (cnt.2 e o').mp hr
      exact ⟨_, _, c, hc, bound _ _ _ hc⟩
    | panic => exact (C04_no_panic G pol hpol d p hp j (by omega) hr).elim
  exact ⟨t, ht, Nat.le_trans hle (Nat.mul_le_mul_right _ h1.length_le)⟩

/-! ## What is found -/

/-- A search that reports spans reports one that lies behind its start and before its end. -/
def SpanPost (d : List ι) (o : Nat) (r : Res (Option Span)) : Prop :=
  ∀ s o', r = .ok (some s) o' → o ≤ s.beg ∧ s.len ≠ 0 ∧ s.beg + s.len ≤ o' ∧ o' ≤ blen d

theorem span_post (hpol : SafePol G pol) (hp : All G (Safe G pol) p) {func : Processor} (hf : MovesOn func (blen d))
    (n m o : Nat) : Sat (findLoop (tryMat G m pol d p) (blen d) func (Extract.span.invoke d) n o) (SpanPost d o) := by
  induction n generalizing o with
  | zero => exact Sat.none
  | succ n ih =>
    intro x hx
    simp only [findLoop] at hx
    split at hx
    · next hlt =>
      have body : ∀ ret o', o ≤ o' → o' ≤ blen d → (∀ s, ret = .ok s → o ≤ s.beg ∧ s.beg + s.len ≤ o') →
          findBody func (Extract.span.invoke d) (findLoop (tryMat G m pol d p) (blen d) func (Extract.span.invoke d) n) ret o' = some x →
          SpanPost d o x := by
        intro ret o' h1 h1' h2 hx
        have hm := hf ret o' h1'
        unfold findBody at hx
        split at hx
        · next o2 heq =>
          rw [heq] at hm
          intro s o3 e
          obtain ⟨k1, k2, k3, k4⟩ := ih o2 x hx s o3 e
          exact ⟨by dsimp only at hm; omega, k2, k3, k4⟩
        · next s o2 heq =>
          rw [heq] at hm
          obtain ⟨e1, e2, rfl⟩ := hm
          have := h2 s e1
          simp only [Extract.invoke] at hx
          cases hx
          intro s' o' e
          cases e
          exact ⟨this.1, e2, this.2, h1'⟩
      obtain ⟨f1, f2⟩ := C05_forward_and_in_bounds G pol hpol d p hp o (by omega)
      cases hv : tryMat G m pol d p o with
      | none => rw [hv] at hx; cases hx
      | some v =>
        rw [hv] at hx
        cases v with
        | ok s o' =>
          have := f1 s o' ⟨m, hv⟩
          exact body _ o' (by omega) this.2.2 (fun s' e => by cases e; omega) hx
        | err e o' =>
          have := f2 e o' ⟨m, hv⟩
          exact body _ o' this.1 this.2 (fun s' e => by cases e) hx
        | panic => exact (C04_no_panic G pol hpol d p hp o (by omega) ⟨m, hv⟩).elim
    · cases hx
      intro s o' e; cases e

theorem drain_spans {next : Nat → Option (Res (Option Span))} (hn : ∀ o, Sat (next o) (SpanPost d o)) (k o : Nat) :
    Sat (drain next k o) (fun r => ∀ ss e, r = .ok ss e → ss.Pairwise (fun s t => s.beg + s.len ≤ t.beg) ∧
      ∀ s ∈ ss, o ≤ s.beg ∧ s.len ≠ 0 ∧ s.beg + s.len ≤ blen d) := by
  induction k generalizing o with
  | zero => exact Sat.none
  | succ k ih =>
    intro x hx
    simp only [drain] at hx
    cases hv : next o with
    | none => rw [hv] at hx; cases hx
    | some v =>
      have h := hn o v hv
      rw [hv] at hx
      cases v with
      | panic => cases hx; simp
      | err e o' => cases hx; simp
      | ok a o' =>
        cases a with
        | none => cases hx; intro ss e h; cases h; simp
        | some a =>
          obtain ⟨k1, k2, k3, k4⟩ := h a o' rfl
          simp only [caseR] at hx
          cases hw : drain next k o' with
          | none => rw [hw] at hx; cases hx
          | some w =>
            have g := ih o' w hw
            rw [hw] at hx
            cases w with
            | panic => cases hx; simp
            | err e o2 => cases hx; simp
            | ok l o2 =>
              cases hx
              intro ss e h
              cases h
              obtain ⟨g1, g2⟩ := g l o2 rfl
              refine ⟨List.pairwise_cons.mpr ⟨fun t ht => by have := (g2 t ht).1; omega, g1⟩, fun s hs => ?_⟩
              rcases List.mem_cons.mp hs with rfl | hs
              · exact ⟨k1, k2, by omega⟩
              · have := g2 s hs; exact ⟨by omega, this.2⟩

/-- **C91 (order).** In every context, what `find_all` and `match_seq` yield is non-empty, in the
order of the text, inside the searched part of it, and does not overlap. -/
theorem C91_ordered (hpol : SafePol G pol) (hp : All G (Safe G pol) p) (o e : Nat) (ss : List Span)
    (h : FindsAll G pol d p .span o (.ok ss e) ∨ MatchSeqs G pol d p .span o (.ok ss e)) :
    ss.Pairwise (fun s t => s.beg + s.len ≤ t.beg) ∧ ∀ s ∈ ss, o ≤ s.beg ∧ s.len ≠ 0 ∧ s.beg + s.len ≤ blen d := by
  rcases h with ⟨n, hn⟩ | ⟨n, hn⟩
  · exact drain_spans (fun o => span_post hpol hp (findProc_moves _) n n o) n o _ hn ss e rfl
  · exact drain_spans (fun o => span_post hpol hp (seqProc_moves _) n n o) n o _ hn ss e rfl

/-! ## Behind the end -/

/-- **C91 (behind the end).** A search that finds nothing in a context that skips can leave the
context behind the end of the text, where matching panics: the skipping reaches the end, the
attempt fails there, and the search moves on by one. -/
theorem C91_past_end_counterexample :
    Finds (β := Nat) G0 (some spaces) ['a', ' '] (.lit ['b']) .span 0 (.ok none 3) ∧ blen ['a', ' '] = 2 ∧
    Runs (β := Nat) G0 (some spaces) ['a', ' '] (.lit ['b']) 3 .panic :=
  ⟨⟨9, by decide⟩, by decide, ⟨9, by decide⟩⟩

/-- Without skipping a search that finds nothing stops at the end. -/
theorem C91_stops_at_end (hp : All G Tidy p) (o : Nat) (ho : o ≤ blen d) (o' : Nat)
    (h : Finds G none d p .span o (.ok none o')) : o' = blen d := by
  have := ((C28_find_leftmost hp extractable_span o o').2.mp h).2
  omega

/-! ## Examples -/

-- `ab` in `xabxab`: four attempts at the positions 0, 1, 3 and 4
example : FindsAllTrying (β := Nat) G0 none ['x', 'a', 'b', 'x', 'a', 'b'] (.lit ['a', 'b']) .span 0
    (.ok [⟨1, 2⟩, ⟨4, 2⟩] 6) [0, 1, 3, 4] := ⟨20, by decide⟩
-- the same while skipping spaces
example : FindsAllTrying (β := Nat) G0 (some spaces) ['a', ' ', ' ', 'b', 'a', ' ', 'x'] (.lit ['a']) .span 0
    (.ok [⟨0, 1⟩, ⟨4, 1⟩] 7) [0, 1, 4, 5] := ⟨20, by decide⟩
example : SafePol G0 (some spaces) := by
  intro q h; cases h; exact all_spaces (by exact trivial)
example : MatchSeqTrying (β := Nat) G0 none ['a', 'b', 'a', 'b', 'x', 'a', 'b'] (.lit ['a', 'b']) .span 0
    (.ok [⟨0, 2⟩, ⟨2, 2⟩] 7) [0, 2, 4] := ⟨20, by decide⟩
example (L : Nat) : CallsAtMost (G0 : Rules Char Nat) (SafelyEats G0 none) 0 L (.lit ['a', 'b']) (0 + 2) := .plain (by exact trivial)

end Neure
