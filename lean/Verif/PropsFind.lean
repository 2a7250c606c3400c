import Verif.FindLemmas
import Verif.PropsCore
import Verif.Eqs
/-!
# C28–C30: `find`, `find_all`, `match_seq`; C44: context-level helpers
-/

namespace Neure

open Demo

set_option linter.unusedSectionVars false
set_option linter.unusedSimpArgs false

variable {ι β : Type} [Item ι] {G : Rules ι β} {d : List ι} {p : Pat ι β} {α : Type}

/-- Every non-empty match of `p` in `d` can be extracted (`Extract<Span>` and
`Extract<()>`: always; slices: see `extractable_slice`). -/
def Extractable (G : Rules ι β) (d : List ι) (p : Pat ι β) (x : Extract ι α) : Prop :=
  ∀ k s o', k ≤ blen d → Hit G none d p k s o' → ∃ a, x.invoke d s = .ok a

theorem extractable_span : Extractable G d p .span := fun _ s _ _ _ => ⟨s, rfl⟩
theorem extractable_unit : Extractable G d p .unit := fun _ _ _ _ _ => ⟨(), rfl⟩

/-- Text extraction works for patterns that respect character boundaries. -/
theorem extractable_slice (hb : All G (Bounded G none) p) (ha : All G Aligned p) :
    Extractable G d p .slice := by
  intro k s o' hk ⟨hr, hs⟩
  by_cases hv : Valid d k
  · obtain ⟨h1, -⟩ := C03_spans_are_valid_slices G none (fun _ h => by cases h) d p hb k hv
    obtain ⟨-, sub, h2, -⟩ := h1 s o' hr
    exact ⟨sub, h2⟩
  · obtain ⟨n, hn⟩ := hr
    have := stuck_inv G n d p k hv hk ha _ hn
    simp only [StuckAt] at this
    rw [this.1] at hs
    exact absurd rfl hs

theorem noHit_not_hit {o : Nat} {s : Span} {o' : Nat} (h : NoHit G none d p o) :
    ¬ Hit G none d p o s o' := by
  rintro ⟨h1, h2⟩
  rcases h with ⟨e, o1, h⟩ | ⟨s', o1, h, h3⟩
  · cases h.unique h1
  · cases h.unique h1; exact h2 h3

/-- One step of a search loop, for either processor. -/
theorem loop_step {skipTo : Nat → Nat} {x : Extract ι α} (hp : All G Tidy p)
    (hx : Extractable G d p x) {func : Processor}
    (hf1 : ∀ s o, s.len ≠ 0 → func (.ok s) o = (some s, o))
    (hf2 : ∀ s o, s.len = 0 → func (.ok s) o = (none, skipTo o))
    (hf3 : ∀ e o, func (.error e) o = (none, skipTo o)) (o : Nat) (r : Res (Option α)) :
    (∃ n, findLoop (tryMat G n none d p) (blen d) func (x.invoke d) n o = some r) ↔
      (blen d ≤ o ∧ r = .ok none o) ∨
      (o < blen d ∧ NoHit G none d p o ∧
        ∃ n, findLoop (tryMat G n none d p) (blen d) func (x.invoke d) n (skipTo o) = some r) ∨
      (o < blen d ∧ ∃ s o' a, Hit G none d p o s o' ∧ x.invoke d s = .ok a ∧ r = .ok (some a) o') ∨
      (o < blen d ∧ Runs G none d p o .panic ∧ r = .panic) := by
  have key := findLoop_iff (len := blen d) (func := func) (h := x.invoke d)
    (fun o => tryMat_mono G none d p o) o r
  rw [key]
  by_cases hlt : o < blen d
  · rw [if_pos hlt]
    have hge : ¬ blen d ≤ o := by omega
    simp only [hlt, hge, true_and, false_and, false_or]
    constructor
    · rintro ⟨v, hv, hb⟩
      cases v with
      | ok s o' =>
        obtain ⟨e1, e2⟩ := C02_span_and_offset_agree G d p hp o s o' hv
        by_cases hs : s.len = 0
        · simp only [BodyGives, hf2 s o' hs] at hb
          refine .inl ⟨.inr ⟨s, o', hv, hs⟩, ?_⟩
          have : o' = o := by omega
          rwa [this] at hb
        · obtain ⟨a, ha⟩ := hx o s o' (by omega) ⟨hv, hs⟩
          simp only [BodyGives, hf1 s o' hs, ha] at hb
          exact .inr (.inl ⟨s, o', a, ⟨hv, hs⟩, ha, hb⟩)
      | err e o' =>
        have : o' = o := by obtain ⟨n, hn⟩ := hv; exact exact_inv G n d p o hp _ hn
        simp only [BodyGives, hf3] at hb
        rw [this] at hb
        exact .inl ⟨.inl ⟨e, o', hv⟩, hb⟩
      | panic => exact .inr (.inr ⟨hv, hb⟩)
    · rintro (⟨hn, hb⟩ | ⟨s, o', a, ⟨hv, hs⟩, ha, rfl⟩ | ⟨hv, rfl⟩)
      · rcases hn with ⟨e, o', hv⟩ | ⟨s, o', hv, hs⟩
        · have : o' = o := by obtain ⟨n, hn⟩ := hv; exact exact_inv G n d p o hp _ hn
          exact ⟨.err e o', hv, by simpa only [BodyGives, hf3, this] using hb⟩
        · obtain ⟨e1, e2⟩ := C02_span_and_offset_agree G d p hp o s o' hv
          have : o' = o := by omega
          refine ⟨.ok s o', hv, ?_⟩
          simp only [BodyGives, hf2 s o' hs]
          rwa [this]
      · exact ⟨.ok s o', hv, by simp only [BodyGives, hf1 s o' hs, ha]⟩
      · exact ⟨.panic, hv, rfl⟩
  · rw [if_neg hlt]
    have hge : blen d ≤ o := by omega
    simp only [hlt, hge, true_and, false_and, or_false]

theorem finds_step {x : Extract ι α} (hp : All G Tidy p) (hx : Extractable G d p x) (o : Nat)
    (r : Res (Option α)) :
    Finds G none d p x o r ↔
      (blen d ≤ o ∧ r = .ok none o) ∨
      (o < blen d ∧ NoHit G none d p o ∧ Finds G none d p x (o + 1) r) ∨
      (o < blen d ∧ ∃ s o' a, Hit G none d p o s o' ∧ x.invoke d s = .ok a ∧ r = .ok (some a) o') ∨
      (o < blen d ∧ Runs G none d p o .panic ∧ r = .panic) :=
  loop_step (skipTo := (· + 1)) hp hx (fun s o h => by simp [findProc, h])
    (fun s o h => by simp [findProc, h]) (fun e o => rfl) o r

theorem seq_step {x : Extract ι α} (hp : All G Tidy p) (hx : Extractable G d p x) (o : Nat)
    (r : Res (Option α)) :
    SeqNext G none d p x o r ↔
      (blen d ≤ o ∧ r = .ok none o) ∨
      (o < blen d ∧ NoHit G none d p o ∧ SeqNext G none d p x (blen d) r) ∨
      (o < blen d ∧ ∃ s o' a, Hit G none d p o s o' ∧ x.invoke d s = .ok a ∧ r = .ok (some a) o') ∨
      (o < blen d ∧ Runs G none d p o .panic ∧ r = .panic) :=
  loop_step (skipTo := fun _ => blen d) hp hx (fun s o h => by simp [seqProc, h])
    (fun s o h => by simp [seqProc, h]) (fun e o => rfl) o r

/-! ## C28 -/

/-- **C28.** `find(p)` from `o` returns `Some` exactly at the leftmost position
`k ≥ o` where `p` matches non-emptily, with what that match covers, and leaves
the offset behind it.  It returns `None` exactly when no position from `o` to
the end has a non-empty match. -/
theorem C28_find_leftmost {x : Extract ι α} (hp : All G Tidy p) (hx : Extractable G d p x)
    (o o' : Nat) :
    (∀ a, Finds G none d p x o (.ok (some a) o') ↔
      ∃ k s, FirstHit G none d p o k s o' ∧ x.invoke d s = .ok a) ∧
    (Finds G none d p x o (.ok none o') ↔
      (∀ j, o ≤ j → j < blen d → NoHit G none d p j) ∧ o' = max o (blen d)) := by
  generalize hm : blen d - o = m
  induction m generalizing o with
  | zero =>
    have hge : blen d ≤ o := by omega
    constructor
    · intro a
      rw [finds_step hp hx]
      constructor
      · rintro (⟨-, h⟩ | ⟨h, -⟩ | ⟨h, -⟩ | ⟨h, -⟩)
        · cases h
        all_goals omega
      · rintro ⟨k, s, ⟨h1, h2, -⟩, -⟩; omega
    · rw [finds_step hp hx]
      constructor
      · rintro (⟨-, h⟩ | ⟨h, -⟩ | ⟨h, -⟩ | ⟨h, -⟩)
        · cases h; exact ⟨fun j h1 h2 => by omega, by omega⟩
        all_goals omega
      · rintro ⟨-, rfl⟩
        exact .inl ⟨hge, by rw [Nat.max_eq_left hge]⟩
  | succ m ih =>
    have hlt : o < blen d := by omega
    have hge : ¬ blen d ≤ o := by omega
    obtain ⟨ih1, ih2⟩ := ih (o + 1) (by omega)
    constructor
    · intro a
      rw [finds_step hp hx]
      simp only [hlt, hge, true_and, false_and, false_or]
      constructor
      · rintro (⟨hn, h⟩ | ⟨s, o1, a', hh, ha, h⟩ | ⟨-, h⟩)
        · obtain ⟨k, s, ⟨h1, h2, h3, h4⟩, h5⟩ := (ih1 a).mp h
          refine ⟨k, s, ⟨by omega, h2, fun j hj hj' => ?_, h4⟩, h5⟩
          by_cases hjo : j = o
          · rw [hjo]; exact hn
          · exact h3 j (by omega) hj'
        · cases h
          exact ⟨o, s, ⟨Nat.le_refl _, hlt, fun j h1 h2 => by omega, hh⟩, ha⟩
        · cases h
      · rintro ⟨k, s, ⟨h1, h2, h3, h4⟩, h5⟩
        by_cases hko : k = o
        · subst hko; exact .inr (.inl ⟨s, o', a, h4, h5, rfl⟩)
        · exact .inl ⟨h3 o (Nat.le_refl _) (by omega),
            (ih1 a).mpr ⟨k, s, ⟨by omega, h2, fun j hj hj' => h3 j (by omega) hj', h4⟩, h5⟩⟩
    · rw [finds_step hp hx]
      simp only [hlt, hge, true_and, false_and, false_or]
      constructor
      · rintro (⟨hn, h⟩ | ⟨s, o1, a', hh, ha, h⟩ | ⟨-, h⟩)
        · obtain ⟨h1, h2⟩ := ih2.mp h
          refine ⟨fun j hj hj' => ?_, by omega⟩
          by_cases hjo : j = o
          · rw [hjo]; exact hn
          · exact h1 j (by omega) hj'
        · cases h
        · cases h
      · rintro ⟨h1, h2⟩
        exact .inl ⟨h1 o (Nat.le_refl _) hlt, ih2.mpr ⟨fun j hj hj' => h1 j (by omega) hj', by omega⟩⟩

/-- **C28 for text.** For a pattern that respects character boundaries, a
returned text is the part of the input matched at the leftmost position; the
offset is behind it. -/
theorem C28_find_text (hp : All G Tidy p) (hb : All G (Bounded G none) p) (ha : All G Aligned p)
    (o : Nat) (t : List ι) (o' : Nat) (h : Finds G none d p .slice o (.ok (some t) o')) :
    ∃ pre post, d = pre ++ t ++ post ∧ t ≠ [] ∧ o ≤ blen pre ∧ o' = blen pre + blen t ∧
      FirstHit G none d p o (blen pre) ⟨blen pre, blen t⟩ o' := by
  obtain ⟨k, s, hf, hs⟩ := ((C28_find_leftmost hp (extractable_slice hb ha) o o').1 t).mp h
  obtain ⟨pre, post, rfl, h1, h2⟩ := origSub_ok.mp hs
  obtain ⟨hk, hk', hj, hh, hn⟩ := hf
  obtain ⟨e1, e2⟩ := C02_span_and_offset_agree G _ p hp k s o' hh
  obtain ⟨b, l⟩ := s
  simp only at *
  subst e1 h1 h2
  refine ⟨pre, post, rfl, fun h0 => hn ?_, by omega, by omega, by omega, hk', hj, hh, hn⟩
  simp [h0]

/-- **C28, no other outcome.** If `p` never panics, `find` returns `Some` or
`None`, and it returns as soon as `p` returns at every position. -/
theorem C28_find_total {x : Extract ι α} (hp : All G Tidy p) (hx : Extractable G d p x) (o : Nat)
    (ht : ∀ j, o ≤ j → j < blen d → Matches G none d p j ∨ Fails G none d p j) :
    ∃ r o', Finds G none d p x o (.ok r o') := by
  generalize hm : blen d - o = m
  induction m generalizing o with
  | zero => exact ⟨none, o, (finds_step hp hx o _).mpr (.inl ⟨by omega, rfl⟩)⟩
  | succ m ih =>
    have hlt : o < blen d := by omega
    have next : NoHit G none d p o → ∃ r o', Finds G none d p x o (.ok r o') := by
      intro hn
      obtain ⟨r, o', hr⟩ := ih (o + 1) (fun j h1 h2 => ht j (by omega) h2) (by omega)
      exact ⟨r, o', (finds_step hp hx o _).mpr (.inr (.inl ⟨hlt, hn, hr⟩))⟩
    rcases ht o (Nat.le_refl _) hlt with ⟨s, o1, hs⟩ | hf
    · by_cases h0 : s.len = 0
      · exact next (.inr ⟨s, o1, hs, h0⟩)
      · obtain ⟨a, ha⟩ := hx o s o1 (by omega) ⟨hs, h0⟩
        exact ⟨some a, o1, (finds_step hp hx o _).mpr (.inr (.inr (.inl ⟨hlt, s, o1, a, ⟨hs, h0⟩, ha, rfl⟩)))⟩
    · exact next (.inl hf)

/-- Hypotheses and conclusion on a real search: the first `'b'` run in
`"a" é "bb"` is at byte 3; the search passes the inside of the two-byte `é`. -/
example : All (G0 : Rules Char Nat) Tidy (.many1 (.item 'b') .empty) ∧
    All (G0 : Rules Char Nat) (Bounded G0 none) (.many1 (.item 'b') .empty) ∧
    All (G0 : Rules Char Nat) Aligned (.many1 (.item 'b') .empty) ∧
    Finds (β := Nat) G0 none ['a', 'é', 'b', 'b', 'c'] (.many1 (.item 'b') .empty) .slice 0
      (.ok (some ['b', 'b']) 5) :=
  ⟨All.intro trivial fun _ h => absurd h id, All.intro trivial fun _ h => absurd h id,
   All.intro trivial fun _ h => absurd h id, 9, by decide⟩

/-- … and a search that finds nothing ends at the end of the input. -/
example : Finds (β := Nat) G0 none ['a', 'é', 'b'] (.lit ['c']) .span 1 (.ok none 4) := ⟨9, by decide⟩

/-- Without the boundary condition, `find` on `str` can report spans inside a
character: `consume(1)` from offset 1 of `"é"`; as text it finds nothing. -/
theorem C28_inside_character_counterexample :
    Finds (β := Nat) G0 none ['é'] (.consume 1) .span 1 (.ok (some ⟨1, 1⟩) 2) ∧
    Finds (β := Nat) G0 none ['é'] (.consume 1) .slice 1 (.ok none 2) :=
  ⟨⟨5, by decide⟩, ⟨5, by decide⟩⟩

/-! ## C29 -/

/-- The successive leftmost non-empty matches from `o`; `e` is the final
offset. -/
inductive HitsFrom (G : Rules ι β) (d : List ι) (p : Pat ι β) : Nat → List Span → Nat → Prop where
  | nil {o e : Nat} : (∀ j, o ≤ j → j < blen d → NoHit G none d p j) → e = max o (blen d) →
      HitsFrom G d p o [] e
  | cons {o k o' e : Nat} {s : Span} {l : List Span} : FirstHit G none d p o k s o' →
      HitsFrom G d p o' l e → HitsFrom G d p o (s :: l) e

/-- **C29.** Draining `find_all(p)` yields exactly the successive leftmost
non-empty matches, each search starting where the previous match left the
offset. -/
theorem C29_find_all {x : Extract ι α} (hp : All G Tidy p) (hx : Extractable G d p x) (o e : Nat)
    (l : List α) :
    FindsAll G none d p x o (.ok l e) ↔
      ∃ ss, HitsFrom G d p o ss e ∧ ss.map (x.invoke d) = l.map .ok := by
  have key := fun (o : Nat) (l : List α) => drain_iff (nx := find G none d p x)
    (fun o => findLoop_mono (fun o => tryMat_mono G none d p o) o) o l e
  induction l generalizing o with
  | nil =>
    have hk : FindsAll G none d p x o (.ok [] e) ↔ Finds G none d p x o (.ok none e) := key o []
    rw [hk, (C28_find_leftmost hp hx o e).2]
    constructor
    · rintro ⟨h1, h2⟩; exact ⟨[], .nil h1 h2, rfl⟩
    · rintro ⟨ss, h1, h2⟩
      have : ss = [] := by simpa using h2
      subst this
      cases h1 with | nil h1 h2 => exact ⟨h1, h2⟩
  | cons a l ih =>
    have hk : FindsAll G none d p x o (.ok (a :: l) e) ↔
        ∃ o1, Finds G none d p x o (.ok (some a) o1) ∧ FindsAll G none d p x o1 (.ok l e) :=
      key o (a :: l)
    rw [hk]
    constructor
    · rintro ⟨o1, h1, h2⟩
      obtain ⟨k, s, hf, ha⟩ := ((C28_find_leftmost hp hx o o1).1 a).mp h1
      obtain ⟨ss, hs, hm⟩ := (ih o1).mp h2
      exact ⟨s :: ss, .cons hf hs, by simp [ha, hm]⟩
    · rintro ⟨ss, hs, hm⟩
      cases hs with
      | nil => simp at hm
      | cons hf hs =>
        simp only [List.map_cons, List.cons.injEq] at hm
        exact ⟨_, ((C28_find_leftmost hp hx o _).1 a).mpr ⟨_, _, hf, hm.1⟩, (ih _).mpr ⟨_, hs, hm.2⟩⟩

/-- **C29, order.** The matches are non-empty, in order and do not overlap, and
all lie between the starting offset and the end of the input. -/
theorem C29_ordered_disjoint (hp : All G Tidy p) (hs : All G (Safe G none) p) {o e : Nat}
    {ss : List Span} (h : HitsFrom G d p o ss e) :
    ss.Pairwise (fun s t => s.beg + s.len ≤ t.beg) ∧
    (∀ s ∈ ss, o ≤ s.beg ∧ s.len ≠ 0 ∧ s.beg + s.len ≤ blen d) ∧ (o ≤ blen d → e = blen d) := by
  induction h with
  | nil h1 h2 => exact ⟨.nil, by simp, by omega⟩
  | cons hf hl ih =>
    obtain ⟨h1, h2, -, h3, h4⟩ := hf
    obtain ⟨i1, i2, i3⟩ := ih
    obtain ⟨e1, e2⟩ := C02_span_and_offset_agree G d p hp _ _ _ h3
    obtain ⟨e3, -⟩ := C05_forward_and_in_bounds G none (fun _ h => by cases h) d p hs _
      (Nat.le_of_lt h2)
    have := e3 _ _ h3
    refine ⟨.cons (fun t ht => ?_) i1, fun t ht => ?_, fun _ => i3 (by omega)⟩
    · have := (i2 t ht).1; omega
    · rcases List.mem_cons.mp ht with rfl | ht
      · exact ⟨by omega, h4, by omega⟩
      · have := i2 t ht; exact ⟨by omega, this.2.1, this.2.2⟩

/-- **C29, finiteness.** If `p` returns without panic at every position, draining
`find_all(p)` ends, after at most as many matches as there are bytes left. -/
theorem C29_find_all_ends {x : Extract ι α} (hp : All G Tidy p)
    (hx : Extractable G d p x) (o : Nat)
    (ht : ∀ j, o ≤ j → j < blen d → Matches G none d p j ∨ Fails G none d p j) :
    ∃ l e, FindsAll G none d p x o (.ok l e) ∧ l.length ≤ blen d - o := by
  have key := fun (o e : Nat) (l : List α) => drain_iff (nx := find G none d p x)
    (fun o => findLoop_mono (fun o => tryMat_mono G none d p o) o) o l e
  generalize hm : blen d - o = m
  induction m using Nat.strongRecOn generalizing o with
  | ind m ih =>
    obtain ⟨r, o', hr⟩ := C28_find_total hp hx o ht
    cases r with
    | none => exact ⟨[], o', (key o o' []).mpr hr, by simp⟩
    | some a =>
      obtain ⟨k, s, ⟨h1, h2, -, h3, h4⟩, -⟩ := ((C28_find_leftmost hp hx o o').1 a).mp hr
      obtain ⟨e1, e2⟩ := C02_span_and_offset_agree G d p hp _ _ _ h3
      obtain ⟨l, e, hl, hlen⟩ := ih (blen d - o') (by omega) o'
        (fun j hj hj' => ht j (by omega) hj') rfl
      exact ⟨a :: l, e, (key o e (a :: l)).mpr ⟨o', hr, hl⟩, by simp; omega⟩

example : FindsAll (β := Nat) G0 none ['a', 'é', 'b', 'b', 'a', 'b'] (.many1 (.item 'b') .empty) .slice 0
    (.ok [['b', 'b'], ['b']] 7) := ⟨20, by decide⟩

/-- The pattern of the counterexample: `array_ltm(["ab", ""])`. -/
def ltmLoopPat : Pat Char Nat := .ltm .array [(.lit ['a', 'b'], none), (.empty, none)]

/-- With `*_ltm`, whose offset stays where the last attempt left it, `find_all`
can return the same match forever (`src/regex.rs:800-826`,
`src/ctx.rs:645-673`): every one of any number of calls of `next()` returns the
match `0..2`, and the offset never moves. -/
theorem C29_ltm_forever_counterexample (k : Nat) :
    FindAllCalls (β := Nat) G0 none ['a', 'b'] ltmLoopPat .span k 0
      (.ok (List.replicate k (some ⟨0, 2⟩)) 0) := by
  refine ⟨5, ?_⟩
  induction k with
  | zero => rfl
  | succ k ih =>
    have h : find (β := Nat) G0 none ['a', 'b'] ltmLoopPat .span 5 0 = some (.ok (some ⟨0, 2⟩) 0) := by
      decide
    simp only [nextCalls, h, caseR, ih, List.replicate_succ]

/-! ## C30 -/

/-- The maximal sequence of consecutive non-empty matches from `o`; `e` is the
final offset: the end of the input (or `o`, if already beyond). -/
inductive SeqFrom (G : Rules ι β) (d : List ι) (p : Pat ι β) : Nat → List Span → Nat → Prop where
  | nil {o e : Nat} : (o < blen d → NoHit G none d p o) → e = max o (blen d) → SeqFrom G d p o [] e
  | cons {o o' e : Nat} {s : Span} {l : List Span} : o < blen d → Hit G none d p o s o' →
      SeqFrom G d p o' l e → SeqFrom G d p o (s :: l) e

theorem seqNext_iff {x : Extract ι α} (hp : All G Tidy p) (hx : Extractable G d p x) (o o' : Nat) :
    (∀ a, SeqNext G none d p x o (.ok (some a) o') ↔
      o < blen d ∧ ∃ s, Hit G none d p o s o' ∧ x.invoke d s = .ok a) ∧
    (SeqNext G none d p x o (.ok none o') ↔
      (o < blen d → NoHit G none d p o) ∧ o' = max o (blen d)) := by
  have hend : ∀ r, SeqNext G none d p x (blen d) r ↔ r = .ok none (blen d) := by
    intro r
    rw [seq_step hp hx]
    simp
  constructor
  · intro a
    rw [seq_step hp hx]
    simp only [hend]
    constructor
    · rintro (⟨-, h⟩ | ⟨-, -, h⟩ | ⟨h1, s, o1, a', hh, ha, h⟩ | ⟨-, -, h⟩) <;> cases h
      exact ⟨h1, s, hh, ha⟩
    · rintro ⟨h1, s, hh, ha⟩
      exact .inr (.inr (.inl ⟨h1, s, o', a, hh, ha, rfl⟩))
  · rw [seq_step hp hx]
    simp only [hend]
    constructor
    · rintro (⟨h1, h⟩ | ⟨h1, h2, h⟩ | ⟨h1, s, o1, a', hh, ha, h⟩ | ⟨-, -, h⟩) <;> cases h
      · exact ⟨fun h => by omega, by omega⟩
      · exact ⟨fun _ => h2, by omega⟩
    · rintro ⟨h1, rfl⟩
      by_cases hlt : o < blen d
      · exact .inr (.inl ⟨hlt, h1 hlt, by rw [Nat.max_eq_right (by omega)]⟩)
      · exact .inl ⟨by omega, by rw [Nat.max_eq_left (by omega)]⟩

/-- **C30.** Draining `match_seq(p)` yields exactly the maximal sequence of
consecutive non-empty matches and leaves the offset at the end of the input. -/
theorem C30_match_seq {x : Extract ι α} (hp : All G Tidy p) (hx : Extractable G d p x) (o e : Nat)
    (l : List α) :
    MatchSeqs G none d p x o (.ok l e) ↔
      ∃ ss, SeqFrom G d p o ss e ∧ ss.map (x.invoke d) = l.map .ok := by
  have key := fun (o : Nat) (l : List α) => drain_iff (nx := seqNext G none d p x)
    (fun o => findLoop_mono (fun o => tryMat_mono G none d p o) o) o l e
  induction l generalizing o with
  | nil =>
    have hk : MatchSeqs G none d p x o (.ok [] e) ↔ SeqNext G none d p x o (.ok none e) := key o []
    rw [hk, (seqNext_iff hp hx o e).2]
    constructor
    · rintro ⟨h1, h2⟩; exact ⟨[], .nil h1 h2, rfl⟩
    · rintro ⟨ss, h1, h2⟩
      have : ss = [] := by simpa using h2
      subst this
      cases h1 with | nil h1 h2 => exact ⟨h1, h2⟩
  | cons a l ih =>
    have hk : MatchSeqs G none d p x o (.ok (a :: l) e) ↔
        ∃ o1, SeqNext G none d p x o (.ok (some a) o1) ∧ MatchSeqs G none d p x o1 (.ok l e) :=
      key o (a :: l)
    rw [hk]
    constructor
    · rintro ⟨o1, h1, h2⟩
      obtain ⟨hlt, s, hf, ha⟩ := ((seqNext_iff hp hx o o1).1 a).mp h1
      obtain ⟨ss, hs, hm⟩ := (ih o1).mp h2
      exact ⟨s :: ss, .cons hlt hf hs, by simp [ha, hm]⟩
    · rintro ⟨ss, hs, hm⟩
      cases hs with
      | nil => simp at hm
      | cons hlt hf hs =>
        simp only [List.map_cons, List.cons.injEq] at hm
        exact ⟨_, ((seqNext_iff hp hx o _).1 a).mpr ⟨hlt, _, hf, hm.1⟩, (ih _).mpr ⟨_, hs, hm.2⟩⟩

/-- **C30, contiguity.** The first match starts at the starting offset, each next
one where the previous ended. -/
theorem C30_contiguous (hp : All G Tidy p) {o e : Nat} {ss : List Span} (h : SeqFrom G d p o ss e) :
    (∀ s, ss.head? = some s → s.beg = o) ∧
    (∀ i s t, ss[i]? = some s → ss[i + 1]? = some t → t.beg = s.beg + s.len) ∧
    (∀ s ∈ ss, s.len ≠ 0) := by
  induction h with
  | nil => simp
  | cons hlt hh hl ih =>
    obtain ⟨i1, i2, i3⟩ := ih
    obtain ⟨e1, e2⟩ := C02_span_and_offset_agree G d p hp _ _ _ hh.1
    refine ⟨?_, fun i s t h1 h2 => ?_, fun s hs => ?_⟩
    · rintro s h; simp at h; subst h; exact e1
    · cases i with
      | zero =>
        simp at h1 h2
        subst h1
        rw [i1 t (by rw [List.head?_eq_getElem?]; exact h2)]; omega
      | succ i => exact i2 i s t (by simpa using h1) (by simpa using h2)
    · rcases List.mem_cons.mp hs with rfl | hs
      · exact hh.2
      · exact i3 s hs

/-- **C30, finiteness.** If `p` returns without panic at every position, draining
`match_seq(p)` ends. -/
theorem C30_match_seq_ends {x : Extract ι α} (hp : All G Tidy p) (hx : Extractable G d p x) (o : Nat)
    (ht : ∀ j, o ≤ j → j < blen d → Matches G none d p j ∨ Fails G none d p j) :
    ∃ l e, MatchSeqs G none d p x o (.ok l e) ∧ l.length ≤ blen d - o := by
  have key := fun (o e : Nat) (l : List α) => drain_iff (nx := seqNext G none d p x)
    (fun o => findLoop_mono (fun o => tryMat_mono G none d p o) o) o l e
  generalize hm : blen d - o = m
  induction m using Nat.strongRecOn generalizing o with
  | ind m ih =>
    have stop : (o < blen d → NoHit G none d p o) →
        ∃ l e, MatchSeqs G none d p x o (.ok l e) ∧ l.length ≤ m := fun h =>
      ⟨[], _, (key o _ []).mpr ((seqNext_iff hp hx o _).2.mpr ⟨h, rfl⟩), by simp⟩
    by_cases hlt : o < blen d
    · rcases ht o (Nat.le_refl _) hlt with ⟨s, o1, hs⟩ | hf
      · by_cases h0 : s.len = 0
        · exact stop fun _ => .inr ⟨s, o1, hs, h0⟩
        · obtain ⟨a, ha⟩ := hx o s o1 (by omega) ⟨hs, h0⟩
          obtain ⟨e1, e2⟩ := C02_span_and_offset_agree G d p hp _ _ _ hs
          have hdec : blen d - o1 + 1 ≤ m := by clear stop ih; omega
          have hoo : o ≤ o1 := by clear stop ih; omega
          clear stop
          obtain ⟨l, e, hl, hlen⟩ := ih (blen d - o1) (by clear ih; omega) o1
            (fun j hj hj' => ht j (by clear ih; omega) hj') rfl
          exact ⟨a :: l, e, (key o e (a :: l)).mpr
            ⟨o1, ((seqNext_iff hp hx o o1).1 a).mpr ⟨hlt, s, ⟨hs, h0⟩, ha⟩, hl⟩, by simp; omega⟩
      · exact stop fun _ => .inl hf
    · exact stop fun h => absurd h hlt

example : MatchSeqs (β := Nat) G0 none ['a', 'b', 'a', 'b', 'c', 'a', 'b'] (.lit ['a', 'b']) .slice 0
    (.ok [['a', 'b'], ['a', 'b']] 7) := ⟨20, by decide⟩

/-! ## C44 -/

variable {pol : Option (Pat ι β)}

/-- **C44, `is_mat`.** `is_mat(p)` is `true` iff `try_mat(p)` succeeds, and leaves
the same offset. -/
theorem C44_is_mat (G : Rules ι β) (pol : Option (Pat ι β)) (d : List ι) (p : Pat ι β) (o : Nat)
    (b : Bool) (o' : Nat) :
    (∃ n, isMat G pol d p n o = some (.ok b o')) ↔
      if b then ∃ s, Runs G pol d p o (.ok s o') else ∃ e, Runs G pol d p o (.err e o') := by
  simp only [isMat, caseR_some]
  cases b
  · constructor
    · rintro ⟨n, (⟨-, h⟩ | ⟨s, o1, h1, h2⟩ | ⟨e, o1, h1, h2⟩)⟩
      · cases h
      · cases h2
      · cases h2; exact ⟨e, n, h1⟩
    · rintro ⟨e, n, h⟩; exact ⟨n, .inr (.inr ⟨e, o', h, rfl⟩)⟩
  · constructor
    · rintro ⟨n, (⟨-, h⟩ | ⟨s, o1, h1, h2⟩ | ⟨e, o1, h1, h2⟩)⟩
      · cases h
      · cases h2; exact ⟨s, n, h1⟩
      · cases h2
    · rintro ⟨s, n, h⟩; exact ⟨n, .inr (.inl ⟨s, o', h, rfl⟩)⟩

/-- **C44, `try_assert`/`assert`.** They report whether `p` matches and never
move the offset. -/
theorem C44_try_assert (G : Rules ι β) (pol : Option (Pat ι β)) (d : List ι) (p : Pat ι β) (o : Nat)
    (r : Res Bool) :
    (∃ n, tryAssert G pol d p n o = some r) ↔
      (r = .ok true o ∧ Matches G pol d p o) ∨ (r = .ok false o ∧ Fails G pol d p o) ∨
      (r = .panic ∧ Runs G pol d p o .panic) := by
  simp only [tryAssert, caseR_some]
  constructor
  · rintro ⟨n, (⟨h, rfl⟩ | ⟨s, o1, h1, h2⟩ | ⟨e, o1, h1, h2⟩)⟩
    · exact .inr (.inr ⟨rfl, n, h⟩)
    · cases h2; exact .inl ⟨rfl, s, o1, n, h1⟩
    · cases h2; exact .inr (.inl ⟨rfl, e, o1, n, h1⟩)
  · rintro (⟨rfl, s, o1, n, h⟩ | ⟨rfl, e, o1, n, h⟩ | ⟨rfl, n, h⟩)
    · exact ⟨n, .inr (.inl ⟨s, o1, h, rfl⟩)⟩
    · exact ⟨n, .inr (.inr ⟨e, o1, h, rfl⟩)⟩
    · exact ⟨n, .inl ⟨h, rfl⟩⟩

theorem Parses.get {o : Nat} {r : Res Span} (h : Parses G pol d p o r) :
    ∃ N, ∀ n, N ≤ n → parse G n pol d p o = some r := by
  obtain ⟨N, hN⟩ := h
  exact ⟨N, fun n hn => parse_mono G pol d p o N n hn r hN⟩

/-- **C44, `try_mat_policy`.** The three patterns are applied in order, each from
where the previous one stopped; the span is that of the middle one.  The first
failure is the result; nothing is undone. -/
theorem C44_try_mat_policy (G : Rules ι β) (pol : Option (Pat ι β)) (d : List ι)
    (p before after : Pat ι β) (o : Nat) :
    (∀ s o', (∃ n, tryMatPolicy G pol d p before after n o = some (.ok s o')) ↔
      ∃ sb o1 o2 sa, Parses G pol d before o (.ok sb o1) ∧ Parses G pol d p o1 (.ok s o2) ∧
        Parses G pol d after o2 (.ok sa o')) ∧
    (∀ e o', (∃ n, tryMatPolicy G pol d p before after n o = some (.err e o')) ↔
      Parses G pol d before o (.err e o') ∨
      (∃ sb o1, Parses G pol d before o (.ok sb o1) ∧ Parses G pol d p o1 (.err e o')) ∨
      (∃ sb o1 s o2, Parses G pol d before o (.ok sb o1) ∧ Parses G pol d p o1 (.ok s o2) ∧
        Parses G pol d after o2 (.err e o'))) := by
  constructor
  · intro s o'
    constructor
    · rintro ⟨n, h⟩
      simp only [tryMatPolicy, caseR_some] at h
      rcases h with ⟨-, h⟩ | ⟨sb, o1, h1, h⟩ | ⟨e, o1, h1, h⟩
      · cases h
      · rcases h with ⟨-, h⟩ | ⟨s', o2, h2, h⟩ | ⟨e, o2, h2, h⟩
        · cases h
        · rcases h with ⟨-, h⟩ | ⟨sa, o3, h3, h⟩ | ⟨e, o3, h3, h⟩
          · cases h
          · cases h; exact ⟨sb, o1, o2, sa, ⟨n, h1⟩, ⟨n, h2⟩, ⟨n, h3⟩⟩
          · cases h
        · cases h
      · cases h
    · rintro ⟨sb, o1, o2, sa, h1, h2, h3⟩
      obtain ⟨n1, h1⟩ := h1.get
      obtain ⟨n2, h2⟩ := h2.get
      obtain ⟨n3, h3⟩ := h3.get
      refine ⟨n1 + n2 + n3, ?_⟩
      simp only [tryMatPolicy, h1 (n1 + n2 + n3) (by omega), h2 (n1 + n2 + n3) (by omega),
        h3 (n1 + n2 + n3) (by omega), caseR]
  · intro e o'
    constructor
    · rintro ⟨n, h⟩
      simp only [tryMatPolicy, caseR_some] at h
      rcases h with ⟨-, h⟩ | ⟨sb, o1, h1, h⟩ | ⟨e, o1, h1, h⟩
      · cases h
      · rcases h with ⟨-, h⟩ | ⟨s', o2, h2, h⟩ | ⟨e, o2, h2, h⟩
        · cases h
        · rcases h with ⟨-, h⟩ | ⟨sa, o3, h3, h⟩ | ⟨e, o3, h3, h⟩
          · cases h
          · cases h
          · cases h; exact .inr (.inr ⟨sb, o1, s', o2, ⟨n, h1⟩, ⟨n, h2⟩, ⟨n, h3⟩⟩)
        · cases h; exact .inr (.inl ⟨sb, o1, ⟨n, h1⟩, ⟨n, h2⟩⟩)
      · cases h; exact .inl ⟨n, h1⟩
    · rintro (h1 | ⟨sb, o1, h1, h2⟩ | ⟨sb, o1, s, o2, h1, h2, h3⟩)
      · obtain ⟨n1, h1⟩ := h1
        exact ⟨n1, by simp only [tryMatPolicy, h1, caseR]⟩
      · obtain ⟨n1, h1⟩ := h1.get
        obtain ⟨n2, h2⟩ := h2.get
        refine ⟨n1 + n2, ?_⟩
        simp only [tryMatPolicy, h1 (n1 + n2) (by omega), h2 (n1 + n2) (by omega), caseR]
      · obtain ⟨n1, h1⟩ := h1.get
        obtain ⟨n2, h2⟩ := h2.get
        obtain ⟨n3, h3⟩ := h3.get
        refine ⟨n1 + n2 + n3, ?_⟩
        simp only [tryMatPolicy, h1 (n1 + n2 + n3) (by omega), h2 (n1 + n2 + n3) (by omega),
          h3 (n1 + n2 + n3) (by omega), caseR]

theorem parses_nothing {pol : Option (Pat ι β)} {o : Nat} {r : Res Span} :
    Parses G pol d (.native fun _ o => .ok ⟨0, 0⟩ o) o r ↔ r = .ok ⟨0, 0⟩ o := by
  constructor
  · rintro ⟨n, h⟩
    cases n with
    | zero => cases h
    | succ n => simp only [parse, step, Option.some.injEq] at h; exact h.symm
  · rintro rfl; exact ⟨1, by simp [parse, step]⟩

/-- **C44, `try_mat_before`.** `before`, then `p`; the span is that of `p`. -/
theorem C44_try_mat_before (G : Rules ι β) (pol : Option (Pat ι β)) (d : List ι)
    (p before : Pat ι β) (o : Nat) :
    (∀ s o', (∃ n, tryMatBefore G pol d p before n o = some (.ok s o')) ↔
      ∃ sb o1, Parses G pol d before o (.ok sb o1) ∧ Parses G pol d p o1 (.ok s o')) ∧
    (∀ e o', (∃ n, tryMatBefore G pol d p before n o = some (.err e o')) ↔
      Parses G pol d before o (.err e o') ∨
      ∃ sb o1, Parses G pol d before o (.ok sb o1) ∧ Parses G pol d p o1 (.err e o')) := by
  have h := C44_try_mat_policy G pol d p before (.native fun _ o => .ok ⟨0, 0⟩ o) o
  simp only [parses_nothing, Res.ok.injEq, reduceCtorEq, and_false, exists_const, exists_false, or_false] at h
  refine ⟨fun s o' => (h.1 s o').trans ⟨?_, ?_⟩, h.2⟩
  · rintro ⟨sb, o1, o2, _, h1, h2, rfl, rfl⟩; exact ⟨sb, o1, h1, h2⟩
  · rintro ⟨sb, o1, h1, h2⟩; exact ⟨sb, o1, o', _, h1, h2, rfl, rfl⟩

/-- **C44, `try_mat_after`.** `p`, then `after`, which is read too; the span is that of
`p`. -/
theorem C44_try_mat_after (G : Rules ι β) (pol : Option (Pat ι β)) (d : List ι)
    (p after : Pat ι β) (o : Nat) :
    (∀ s o', (∃ n, tryMatAfter G pol d p after n o = some (.ok s o')) ↔
      ∃ o1 sa, Parses G pol d p o (.ok s o1) ∧ Parses G pol d after o1 (.ok sa o')) ∧
    (∀ e o', (∃ n, tryMatAfter G pol d p after n o = some (.err e o')) ↔
      Parses G pol d p o (.err e o') ∨
      ∃ s o1, Parses G pol d p o (.ok s o1) ∧ Parses G pol d after o1 (.err e o')) := by
  have h := C44_try_mat_policy G pol d p (.native fun _ o => .ok ⟨0, 0⟩ o) after o
  simp only [parses_nothing, Res.ok.injEq, reduceCtorEq, false_or] at h
  refine ⟨fun s o' => (h.1 s o').trans ⟨?_, ?_⟩, fun e o' => (h.2 e o').trans ⟨?_, ?_⟩⟩
  · rintro ⟨_, _, o2, sa, ⟨rfl, rfl⟩, h1, h2⟩; exact ⟨o2, sa, h1, h2⟩
  · rintro ⟨o1, sa, h1, h2⟩; exact ⟨_, _, o1, sa, ⟨rfl, rfl⟩, h1, h2⟩
  · rintro (⟨_, _, ⟨rfl, rfl⟩, h1⟩ | ⟨_, _, s, o2, ⟨rfl, rfl⟩, h1, h2⟩)
    · exact .inl h1
    · exact .inr ⟨s, o2, h1, h2⟩
  · rintro (h1 | ⟨s, o1, h1, h2⟩)
    · exact .inl ⟨_, _, ⟨rfl, rfl⟩, h1⟩
    · exact .inr ⟨_, _, s, o1, ⟨rfl, rfl⟩, h1, h2⟩

/-- **C44, `try_mat`.** On a plain context `try_mat(p)` is `try_mat_before(p, no-op)`
(`src/ctx/regex.rs:443-448`), i.e. the modelling of `try_mat` by `try_parse` is
faithful. -/
theorem C44_try_mat_is_try_mat_before (G : Rules ι β) (d : List ι) (p : Pat ι β) (o : Nat)
    (r : Res Span) :
    (∃ n, tryMatBefore G none d p (.native fun _ o => .ok ⟨0, 0⟩ o) n o = some r) ↔
      Runs G none d p o r := by
  constructor
  · rintro ⟨n, h⟩
    cases n with
    | zero => cases h
    | succ n =>
      refine ⟨n + 1, ?_⟩
      show parse G (n + 1) none d p o = some r
      simp only [tryMatBefore, tryMatPolicy, caseR_some] at h
      rcases h with ⟨h, -⟩ | ⟨sb, o1, h1, h⟩ | ⟨e, o1, h1, h⟩
      · simp [parse, step] at h
      · simp only [parse, step, Option.some.injEq, Res.ok.injEq] at h1
        obtain ⟨rfl, rfl⟩ := h1
        rcases h with ⟨h2, rfl⟩ | ⟨s', o2, h2, h⟩ | ⟨e, o2, h2, h⟩
        · exact h2
        · rcases h with ⟨h, -⟩ | ⟨sa, o3, h3, h⟩ | ⟨e, o3, h3, h⟩
          · simp [parse, step] at h
          · simp only [parse, step, Option.some.injEq, Res.ok.injEq] at h3
            obtain ⟨rfl, rfl⟩ := h3
            rw [h2]; exact h
          · simp [parse, step] at h3
        · rw [h2]; exact h
      · simp [parse, step] at h1
  · rintro ⟨n, h⟩
    refine ⟨n + 1, ?_⟩
    have h' : parse G (n + 1) none d p o = some r := parse_mono G none d p o n (n + 1) (by omega) r h
    have h0 : ∀ o, parse G (n + 1) none d (.native fun _ o => .ok ⟨0, 0⟩ o) o = some (.ok ⟨0, 0⟩ o) := by
      intro o; simp [parse, step]
    simp only [tryMatBefore, tryMatPolicy, h0, caseR, h']
    cases r <;> rfl

/-- `try_mat_before(" "*, "a")` on `"  a"`: the span covers only `a`. -/
example : tryMatBefore (β := Nat) G0 none [' ', ' ', 'a'] (.lit ['a']) spaces 5 0 =
    some (.ok ⟨2, 1⟩ 3) := by decide
/-- `try_mat_after("a", " "*)` on `"a b"` consumes the blank (the documentation
calls the third pattern a lookahead that is "not included"; it is consumed). -/
example : tryMatAfter (β := Nat) G0 none ['a', ' ', 'b'] (.lit ['a']) spaces 5 0 =
    some (.ok ⟨0, 1⟩ 2) := by decide
example : tryAssert (β := Nat) G0 none ['a', 'b'] (.lit ['a']) 5 0 = some (.ok true 0) := by decide
example : isMat (β := Nat) G0 none ['a', 'b'] (.lit ['a']) 5 0 = some (.ok true 1) := by decide

end Neure
