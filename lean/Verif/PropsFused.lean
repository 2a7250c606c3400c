import Verif.PropsCut
/-!
# C29: calling the iterator of `find_all` by hand, also after it said `None`
-/

namespace Neure

set_option linter.unusedSectionVars false
set_option linter.unusedSimpArgs false

open Demo

variable {ι β : Type} [Item ι] {G : Rules ι β} {pol : Option (Pat ι β)} {d : List ι} {p : Pat ι β} {α : Type}

namespace Fused

/-- `None` is said at the end of the input only. -/
theorem none_at_end {mt : Nat → Option (Res Span)} {len : Nat} {func : Processor} {h : Span → Out α} :
    ∀ (n o e : Nat), findLoop mt len func h n o = some (.ok none e) → ¬ e < len := by
  intro n
  induction n with
  | zero => intro o e he; cases he
  | succ n ih =>
    intro o e he
    simp only [findLoop] at he
    split at he
    · have body : ∀ ret o', findBody func h (findLoop mt len func h n) ret o' = some (.ok none e) → ¬ e < len := by
        intro ret o' hb
        unfold findBody at hb
        split at hb
        · exact ih _ _ hb
        · split at hb
          · cases hb
          · exact ih _ _ hb
          · cases hb
      cases hm : mt o with
      | none => rw [hm] at he; cases he
      | some r =>
        rw [hm] at he
        cases r with
        | ok s o' => exact body _ _ he
        | err e' o' => exact body _ _ he
        | panic => cases he
    · next hlt => cases he; exact hlt

theorem find_again {x : Extract ι α} {n o e : Nat} (h : find G pol d p x n o = some (.ok none e)) :
    find G pol d p x n e = some (.ok none e) := by
  have := none_at_end _ _ _ h
  cases n with
  | zero => cases h
  | succ n => simp only [find, findLoop]; rw [if_neg this]

theorem calls_step {next : Nat → Option (Res (Option α))} {a : Option α} {k o o' e : Nat} {l : List (Option α)}
    (hx : next o = some (.ok a o')) (h : nextCalls next k o' = some (.ok l e)) :
    nextCalls next (k + 1) o = some (.ok (a :: l) e) := by
  simp only [nextCalls, hx, caseR, h]

theorem calls_none {next : Nat → Option (Res (Option α))} {e : Nat} (h : next e = some (.ok none e)) :
    ∀ k, nextCalls next k e = some (.ok (List.replicate k none) e) := by
  intro k
  induction k with
  | zero => rfl
  | succ k ih => simp only [nextCalls, h, caseR, ih, List.replicate_succ]

theorem calls_of_drain {next : Nat → Option (Res (Option α))} {e : Nat}
    (hn : ∀ o e, next o = some (.ok none e) → next e = some (.ok none e)) (k : Nat) :
    ∀ (m o : Nat) (l : List α), drain next m o = some (.ok l e) →
      nextCalls next (l.length + (k + 1)) o = some (.ok (l.map some ++ List.replicate (k + 1) none) e) := by
  intro m
  induction m with
  | zero => intro o l h; cases h
  | succ m ih =>
    intro o l h
    simp only [drain] at h
    cases hx : next o with
    | none => rw [hx] at h; cases h
    | some r =>
      rw [hx] at h
      cases r with
      | err _ _ => cases h
      | panic => cases h
      | ok a o' =>
        cases a with
        | none =>
          cases h
          rw [List.length_nil, Nat.zero_add, List.map_nil, List.nil_append, List.replicate_succ]
          exact calls_step hx (calls_none (hn _ _ hx) k)
        | some a =>
          simp only [caseR] at h
          cases hd : drain next m o' with
          | none => rw [hd] at h; cases h
          | some r =>
            rw [hd] at h
            cases r with
            | err _ _ => cases h
            | panic => cases h
            | ok l' e' =>
              cases h
              have e1 : (a :: l').length + (k + 1) = (l'.length + (k + 1)) + 1 := by simp; omega
              rw [e1]
              exact calls_step hx (ih _ _ hd)

theorem calls_first {next : Nat → Option (Res (Option α))} {e : Nat} :
    ∀ (m o : Nat) (l : List α) (k : Nat), k ≤ l.length → drain next m o = some (.ok l e) →
      ∃ o', nextCalls next k o = some (.ok ((l.take k).map some) o') := by
  intro m
  induction m with
  | zero => intro o l k _ h; cases h
  | succ m ih =>
    intro o l k hk h
    cases k with
    | zero => exact ⟨o, rfl⟩
    | succ k =>
      simp only [drain] at h
      cases hx : next o with
      | none => rw [hx] at h; cases h
      | some r =>
        rw [hx] at h
        cases r with
        | err _ _ => cases h
        | panic => cases h
        | ok a o' =>
          cases a with
          | none => cases h; simp at hk
          | some a =>
            simp only [caseR] at h
            cases hd : drain next m o' with
            | none => rw [hd] at h; cases h
            | some r =>
              rw [hd] at h
              cases r with
              | err _ _ => cases h
              | panic => cases h
              | ok l' e' =>
                cases h
                obtain ⟨o2, h2⟩ := ih o' l' k (by simpa using hk) hd
                exact ⟨o2, by simp only [nextCalls, hx, caseR, h2, List.take_succ_cons, List.map_cons]⟩

end Fused

/-- **C29 (the iterator is fused).** Whatever the pattern and the policy: if draining `find_all` gives `l`, then calling
`next()` by hand gives the items of `l` one after the other, then `None`, and `None` again for every further
call, without moving the position. Fewer calls give the first items. -/
theorem C29_calls_by_hand {x : Extract ι α} {o e : Nat} {l : List α} (h : FindsAll G pol d p x o (.ok l e)) :
    (∀ k, FindAllCalls G pol d p x (l.length + (k + 1)) o (.ok (l.map some ++ List.replicate (k + 1) none) e)) ∧
    (∀ k, k ≤ l.length → ∃ o', FindAllCalls G pol d p x k o (.ok ((l.take k).map some) o')) := by
  obtain ⟨n, hn⟩ := h
  refine ⟨fun k => ⟨n, Fused.calls_of_drain (fun o e h => Fused.find_again h) k _ _ _ hn⟩, fun k hk => ?_⟩
  obtain ⟨o', h⟩ := Fused.calls_first _ _ _ k hk hn
  exact ⟨o', n, h⟩

/-- Two matches, then `None` twice. -/
example : FindAllCalls (β := Nat) G0 none ['a', 'b', 'a'] (.lit ['a']) .span 4 0
    (.ok [some ⟨0, 1⟩, some ⟨2, 1⟩, none, none] 3) :=
  (C29_calls_by_hand (α := Span) (x := .span) (l := [⟨0, 1⟩, ⟨2, 1⟩]) ⟨6, by decide⟩).1 1

end Neure
