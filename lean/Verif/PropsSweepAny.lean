import Verif.PropsSweepSeq
import Verif.PropsLocal
import Verif.PropsTerm
/-!
# C103: searching with any pattern is the scan of the text with that pattern

For every pattern that returns, looks only at the input that remains and respects character boundaries, `find_all` is
the plain scan: what counts is what the pattern does on each rest of the text alone.
-/

namespace Neure

set_option linter.unusedSectionVars false
set_option linter.unusedSimpArgs false

open Demo

variable {ι β : Type} [Item ι] {G : Rules ι β} {d : List ι} {p : Pat ι β} {α : Type}

/-! ## Specification -/

/-- On the text `t` alone `p` matches the first `k` items, at least one; or it does not match any (`k = 0`). -/
def TakesHere (G : Rules ι β) (p : Pat ι β) (t : List ι) (k : Nat) : Prop :=
  (k = 0 ∧ NoHit G none t p 0) ∨
  (k ≠ 0 ∧ k ≤ t.length ∧ Runs G none t p 0 (.ok ⟨0, blen (t.take k)⟩ (blen (t.take k))))

/-- `parts` are the texts `p` takes one after the other from the beginning of `t`, until it takes nothing. -/
inductive TakenInRow (G : Rules ι β) (p : Pat ι β) : List ι → List (List ι) → Prop
  | stop {t} : TakesHere G p t 0 → TakenInRow G p t []
  | more {t k parts} : k ≠ 0 → TakesHere G p t k → TakenInRow G p (t.drop k) parts → TakenInRow G p t (t.take k :: parts)

namespace Sweep

/-! ## Lemmas -/

theorem noHit_shift (hl : All G Local p) {pre t : List ι} (h : NoHit G none t p 0) : NoHit G none (pre ++ t) p (blen pre) := by
  have hs := fun r => C27_suffix p hl (pre ++ t) t (blen pre) ⟨pre, rfl, rfl⟩ r
  rcases h with ⟨e, o', h⟩ | ⟨s, o', h, h0⟩
  · exact .inl ⟨e, _, (hs _).mpr ⟨_, h, rfl⟩⟩
  · exact .inr ⟨s.shift (blen pre), _, (hs _).mpr ⟨_, h, rfl⟩, h0⟩

theorem noHit_inside (ha : All G Aligned p) (ht : ∀ d o, o ≤ blen d → Matches G none d p o ∨ Fails G none d p o)
    {o : Nat} (hlt : o < blen d) (hv : ¬ Valid d o) : NoHit G none d p o := by
  rcases ht d o (by omega) with ⟨s, o', n, h⟩ | h
  · have hs : StuckAt o (.ok s o') := stuck_inv G n d p o hv (by omega) ha _ h
    exact .inr ⟨s, o', ⟨n, h⟩, by rw [hs.1]⟩
  · exact .inl h

theorem takes_exists (hp : All G Tidy p) (hb : All G (Bounded G none) p) (ha : All G Aligned p)
    (ht : ∀ d o, o ≤ blen d → Matches G none d p o ∨ Fails G none d p o) (t : List ι) : ∃ k, TakesHere G p t k := by
  rcases ht t 0 (by omega) with ⟨s, o', h⟩ | h
  · by_cases h0 : s.len = 0
    · exact ⟨0, .inl ⟨rfl, .inr ⟨s, o', h, h0⟩⟩⟩
    · obtain ⟨e1, e2⟩ := C02_span_and_offset_agree G t p hp _ _ _ h
      obtain ⟨x, hx⟩ := extractable_slice (d := t) hb ha 0 s o' (by omega) ⟨h, h0⟩
      obtain ⟨pre, post, hd, hpre, hxl⟩ := origSub_ok.mp hx
      have : pre = [] := by
        cases pre with
        | nil => rfl
        | cons y l => have := blen_pos_of_ne_nil (l := y :: l) (by simp); omega
      subst this
      simp only [List.nil_append] at hd
      subst hd
      refine ⟨x.length, .inr ⟨?_, by simp, ?_⟩⟩
      · intro hn
        rw [List.eq_nil_of_length_eq_zero hn] at hxl
        exact h0 hxl.symm
      · obtain ⟨b, n⟩ := s
        simp only at e1 e2 hxl
        subst e1 e2 hxl
        simpa using h
  · exact ⟨0, .inl ⟨rfl, .inl h⟩⟩

theorem takes_unique {t : List ι} {k k' : Nat} (h : TakesHere G p t k) (h' : TakesHere G p t k') : k = k' := by
  have pos : ∀ j, j ≠ 0 → j ≤ t.length → blen (t.take j) ≠ 0 := by
    intro j hj hl
    have := blen_pos_of_ne_nil (l := t.take j) (by
      intro hn
      have := congrArg List.length hn
      rw [List.length_take] at this
      simp only [List.length_nil] at this
      omega)
    omega
  rcases h with ⟨rfl, h⟩ | ⟨h0, hl, h⟩
  · rcases h' with ⟨rfl, _⟩ | ⟨h0', hl', h'⟩
    · rfl
    · exact absurd ⟨h', pos _ h0' hl'⟩ (noHit_not_hit h)
  · rcases h' with ⟨rfl, h'⟩ | ⟨h0', hl', h'⟩
    · exact absurd ⟨h, pos _ h0 hl⟩ (noHit_not_hit h')
    · have e := h.unique h'
      injection e with _ e
      have := beginning_of (a := t.take k) (b := t.take k') (x := t.drop k) (y := t.drop k')
        (by simp) (Nat.le_of_eq e)
      obtain ⟨g, hg, _⟩ := this
      have : g = [] := by
        cases g with
        | nil => rfl
        | cons y l =>
          have := blen_pos_of_ne_nil (l := y :: l) (by simp)
          rw [hg, blen_append] at e
          omega
      subst this
      have := congrArg List.length hg
      simp only [List.append_nil, List.length_take] at this
      omega

end Sweep

open Sweep

/-! ## The property -/

/-- **C103 (any pattern).** For a pattern that returns from every position, looks only at what remains of the input and respects
boundaries, there is exactly one number of items it takes from the beginning of each text; `find_all`, on any text and
from any position at a boundary, is the scan of the text with this number. -/
theorem C103_find_all_scan (hp : All G Tidy p) (hb : All G (Bounded G none) p) (ha : All G Aligned p) (hl : All G Local p)
    (ht : ∀ d o, o ≤ blen d → Matches G none d p o ∨ Fails G none d p o) :
    (∀ t, ∃ k, TakesHere G p t k ∧ ∀ k', TakesHere G p t k' → k' = k) ∧
    ∀ wide : List ι → Nat, (∀ t, TakesHere G p t (wide t)) → ∀ pre t,
      (∀ r, FindsAll G none (pre ++ t) p .slice (blen pre) r ↔
        r = .ok ((sweep wide 0 (blen pre) t).map (·.2)) (blen (pre ++ t))) ∧
      (∀ r, FindsAll G none (pre ++ t) p .span (blen pre) r ↔
        r = .ok ((sweep wide 0 (blen pre) t).map fun m => ⟨m.1, blen m.2⟩) (blen (pre ++ t))) := by
  refine ⟨fun t => ?_, fun wide hw pre t => ?_⟩
  · obtain ⟨k, hk⟩ := takes_exists hp hb ha ht t
    exact ⟨k, hk, fun k' h => takes_unique h hk⟩
  · refine both hp hb ha (fun t => ?_) (fun pre t => ⟨fun h => ?_, fun h => ?_⟩)
      (fun d o h h' => noHit_inside ha ht h h') pre t
    · rcases hw t with ⟨h, _⟩ | ⟨_, h, _⟩ <;> omega
    · rcases hw t with ⟨_, h'⟩ | ⟨h', _⟩
      · exact noHit_shift hl h'
      · exact absurd h h'
    · rcases hw t with ⟨h', _⟩ | ⟨_, _, h'⟩
      · exact absurd h' h
      · refine (C27_suffix p hl (pre ++ t) t (blen pre) ⟨pre, rfl, rfl⟩ _).mpr ⟨_, h', ?_⟩
        simp [Res.shift, Span.shift]

/-- **C103 (what was read before does not matter).** For the same patterns `find_all` from a position in a text finds the texts it
finds in the rest of the text alone. -/
theorem C103_find_all_rest (hp : All G Tidy p) (hb : All G (Bounded G none) p) (ha : All G Aligned p) (hl : All G Local p)
    (ht : ∀ d o, o ≤ blen d → Matches G none d p o ∨ Fails G none d p o) (pre t : List ι) :
    ∃ ts, FindsAll G none t p .slice 0 (.ok ts (blen t)) ∧
      FindsAll G none (pre ++ t) p .slice (blen pre) (.ok ts (blen (pre ++ t))) := by
  have hs := C103_find_all_scan hp hb ha hl ht
  have hw : ∃ wide : List ι → Nat, ∀ t, TakesHere G p t (wide t) :=
    ⟨fun t => Classical.choose (hs.1 t), fun t => (Classical.choose_spec (hs.1 t)).1⟩
  obtain ⟨wide, hw⟩ := hw
  have moved : ∀ (t : List ι) k o o', (sweep wide k o t).map (·.2) = (sweep wide k o' t).map (·.2) := by
    intro t
    induction t with
    | nil => intros; simp [sweep]
    | cons x t ih =>
      intro k o o'
      cases k with
      | succ k => exact ih _ _ _
      | zero =>
        simp only [sweep]
        split
        · exact ih _ _ _
        · rw [List.map_cons, List.map_cons, ih]
  refine ⟨_, ((hs.2 wide hw [] t).1 _).mpr rfl, ((hs.2 wide hw pre t).1 _).mpr ?_⟩
  rw [moved t 0 (blen pre) (blen ([] : List ι))]

/-- **C103 (a contiguous sequence of anything).** For the same patterns `match_seq` gives the texts the pattern takes one after the
other, until it takes nothing; there is exactly one such list. -/
theorem C103_match_seq_scan (hp : All G Tidy p) (hb : All G (Bounded G none) p) (ha : All G Aligned p) (hl : All G Local p)
    (ht : ∀ d o, o ≤ blen d → Matches G none d p o ∨ Fails G none d p o) (pre t : List ι) :
    (∃ parts, TakenInRow G p t parts) ∧ ∀ parts, TakenInRow G p t parts → ∀ r,
      MatchSeqs G none (pre ++ t) p .slice (blen pre) r ↔ r = .ok parts (blen (pre ++ t)) := by
  constructor
  · have : ∀ n (t : List ι), t.length ≤ n → ∃ parts, TakenInRow G p t parts := by
      intro n
      induction n with
      | zero =>
        intro t hn
        obtain ⟨k, hk⟩ := takes_exists hp hb ha ht t
        have : k = 0 := by rcases hk with ⟨h, _⟩ | ⟨_, h, _⟩ <;> omega
        subst this
        exact ⟨_, .stop hk⟩
      | succ n ih =>
        intro t hn
        obtain ⟨k, hk⟩ := takes_exists hp hb ha ht t
        by_cases h0 : k = 0
        · subst h0; exact ⟨_, .stop hk⟩
        · obtain ⟨parts, h⟩ := ih (t.drop k) (by rw [List.length_drop]; omega)
          exact ⟨_, .more h0 hk h⟩
    exact this _ t (Nat.le_refl _)
  · intro parts h
    have key : MatchSeqs G none (pre ++ t) p .slice (blen pre) (.ok parts (blen (pre ++ t))) := by
      induction h generalizing pre with
      | stop h =>
        rcases h with ⟨_, h⟩ | ⟨h, _⟩
        · exact seqs_stop hp hb ha (noHit_shift hl h)
        · exact absurd rfl h
      | @more t k parts h0 h _ ih =>
        rcases h with ⟨h, _⟩ | ⟨_, hk, h⟩
        · exact absurd h h0
        · have e : pre ++ t = pre ++ t.take k ++ t.drop k := by simp
          have h2 : Runs G none (pre ++ t) p (blen pre)
              (.ok ⟨blen pre, blen (t.take k)⟩ (blen pre + blen (t.take k))) := by
            refine (C27_suffix p hl (pre ++ t) t (blen pre) ⟨pre, rfl, rfl⟩ _).mpr ⟨_, h, ?_⟩
            simp [Res.shift, Span.shift, Nat.add_comm]
          rw [e] at h2 ⊢
          refine seqs_hit hp hb ha ?_ h2 (ih (pre ++ t.take k))
          intro hn
          have := congrArg List.length hn
          rw [List.length_take] at this
          simp only [List.length_nil] at this
          omega
    exact fun r => ⟨fun h => seqs_unique h key, fun h => h ▸ key⟩

/-! Nested parentheses meet the hypotheses: they return on every text (C35). -/

theorem Sweep.parens_returns (d : List Char) (o : Nat) (ho : o ≤ blen d) :
    Matches GP none d parens o ∨ Fails GP none d parens o :=
  C35_terminates (fun _ h => by cases h) _ (parens_terminates none fun _ h => by cases h) d o ho

example (pre t : List Char) : ∃ ts, FindsAll GP none t parens .slice 0 (.ok ts (blen t)) ∧
    FindsAll GP none (pre ++ t) parens .slice (blen pre) (.ok ts (blen (pre ++ t))) :=
  C103_find_all_rest (all_parens trivial trivial trivial trivial trivial) (all_parens trivial trivial trivial trivial trivial)
    (all_parens trivial trivial trivial trivial trivial) (all_parens trivial trivial trivial trivial trivial)
    Sweep.parens_returns pre t

example : TakesHere GP parens ['(', '(', ')', ')', '('] 4 ∧ TakesHere GP parens ['x', '(', ')'] 0 :=
  ⟨.inr ⟨by decide, by decide, 20, by decide⟩, .inl ⟨rfl, .inl ⟨.literal, 0, 20, by decide⟩⟩⟩

example : MatchSeqs GP none ['x', '(', ')', '(', '(', ')', ')', ' ', '(', ')'] parens .slice 1
    (.ok [['(', ')'], ['(', '(', ')', ')']] 10) := by
  have h := (C103_match_seq_scan (G := GP) (p := parens) (all_parens trivial trivial trivial trivial trivial)
    (all_parens trivial trivial trivial trivial trivial) (all_parens trivial trivial trivial trivial trivial)
    (all_parens trivial trivial trivial trivial trivial) Sweep.parens_returns ['x']
    ['(', ')', '(', '(', ')', ')', ' ', '(', ')']).2
  refine (h [['(', ')'], ['(', '(', ')', ')']] (.more (k := 2) (by decide) (.inr ⟨by decide, by decide, 20, by decide⟩)
    (.more (k := 4) (by decide) (.inr ⟨by decide, by decide, 20, by decide⟩)
      (.stop (.inl ⟨rfl, .inl ⟨.literal, 0, 20, by decide⟩⟩)))) _).mpr (by decide)

end Neure
