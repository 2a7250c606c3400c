import Verif.PropsUnit

/-!
# C26: the start anchor inside a condition

A condition made of a pattern is matched on a context that begins at the item
(`src/neu/cond.rs:122-128`, `clone_at`): for it, every item is at the start of the text.
-/

namespace Neure

set_option linter.unusedSectionVars false

open Demo

variable {ι β : Type} [Item ι] {G : Rules ι β} {d : List ι}

/-- **C26 (start in a condition).** Without a policy, `start` as a condition never rejects an item,
wherever it is in the text. -/
theorem C26_start_always (u : Neu ι) (pre post : List ι) (s : Span) (o' : Nat) :
    Parses G none (pre ++ post) (.many0 u (.regex .start) : Pat ι β) (blen pre) (.ok s o') ↔
      Parses G none (pre ++ post) (.many0 u .empty : Pat ι β) (blen pre) (.ok s o') := by
  have ok : ∀ l : List ι, Matches G none l (.start : Pat ι β) 0 := fun l => ⟨⟨0, 0⟩, 0, 1, rfl⟩
  have no : ∀ l : List ι, ¬ Fails G none l (.start : Pat ι β) 0 := by
    rintro l ⟨e, o1, h⟩
    obtain ⟨s, o2, h'⟩ := ok l
    cases h.unique h'
  rw [C26_regex_cond u .start pre post rfl, C23_many0_takeWhile u pre post rfl]
  constructor
  · rintro ⟨run, rest, rfl, h1, h2, rfl, rfl⟩
    have hr : ∀ x ∈ run, u.isMatch x = true := by
      intro x hx
      obtain ⟨a, b, hab⟩ := List.append_of_mem hx
      exact (h1 a x b hab).1
    have : (run ++ rest).takeWhile u.isMatch = run := by
      rw [List.takeWhile_append_of_pos hr]
      cases rest with
      | nil => simp
      | cons x b =>
        rcases h2 x b rfl with h | h
        · simp [h]
        · exact absurd h (no _)
    rw [this]
  · intro h
    injection h with h1 h2
    subst h1 h2
    refine ⟨post.takeWhile u.isMatch, post.dropWhile u.isMatch, (List.takeWhile_append_dropWhile).symm,
      fun a x b hab => ⟨?_, ok _⟩, fun x b hr => .inl ?_, rfl, rfl⟩
    · have all : ∀ (l : List ι), ∀ x ∈ l.takeWhile u.isMatch, u.isMatch x = true := by
        intro l
        induction l with
        | nil => simp
        | cons y l ih =>
          intro x hx
          rw [List.takeWhile_cons] at hx
          split at hx
          · rcases List.mem_cons.mp hx with rfl | hx
            · assumption
            · exact ih x hx
          · simp at hx
      exact all post x (by rw [hab]; simp)
    · cases hx : u.isMatch x with
      | false => rfl
      | true =>
        have := List.head?_dropWhile_not u.isMatch post
        rw [hr] at this
        simp [hx] at this

/-- **C26 (start in a condition, counterexample).** Anchored at the start, a pattern does not match
in the middle of a text; as a condition the same anchor is met there. -/
theorem C26_start_counterexample :
    Fails (G0 (β := Nat)) none ['a', 'b', 'b'] .start 1 ∧
    Parses (G0 (β := Nat)) none ['a', 'b', 'b'] (.many0 (.item 'b') (.regex .start)) 1 (.ok ⟨1, 2⟩ 3) :=
  ⟨⟨.anchorStart, 1, 2, rfl⟩, 6, by decide⟩

end Neure
