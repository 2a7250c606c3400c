import Verif.PropsLocal
import Verif.PropsSettledCtor
import Verif.PropsCtorLoop
import Verif.PropsCtorComb
import Verif.PropsComb
/-!
# C94: a file of records, one per line
-/

namespace Neure

set_option linter.unusedSectionVars false
set_option linter.unusedSimpArgs false

open Demo

variable {ι β σ : Type} [Item ι] {G : Rules ι β} {H : Handler ι β σ} {p : Pat ι β} {z : ι}

/-! ## Specification -/

/-- What is asked of the pattern of a record: it cannot get past the line end `z`, and looks at
the text from its position on only. -/
structure RecordWise (G : Rules ι β) (H : Handler ι β σ) (z : ι) (p : Pat ι β) : Prop where
  stops : All G (StopsAt G none z) p
  here : All G Local p
  values : All G ValueOnly p
  closures : All G LocalDyn p
  text : TextOnly H
  place : LocalHandler H

/-- `p.suffix(z)`: a record and its line end. -/
abbrev record (p : Pat ι β) (z : ι) : Pat ι β := .suf p (.lit [z])

/-- Every line, read alone, gives one record and is used up; the handler's state is passed on. -/
inductive ReadsLines (G : Rules ι β) (H : Handler ι β σ) (z : ι) (p : Pat ι β) :
    List (List ι) → List (Val β) → σ → σ → Prop where
  | nil (st : σ) : ReadsLines G H z p [] [] st st
  | cons {line : List ι} {lines : List (List ι)} {v : Val β} {vs : List (Val β)} {st st1 st2 : σ} :
      Constructs G H none (line ++ [z]) (record p z) st 0 (.ok v st1 (blen (line ++ [z]))) →
      ReadsLines G H z p lines vs st1 st2 → ReadsLines G H z p (line :: lines) (v :: vs) st st2

/-! ## One line -/

theorem lit_same (before after : List ι) (o : Nat) (ho : Valid before o) (r : Res Span)
    (h : Runs G none (before ++ [z]) (.lit [z]) o r) : Runs G none (before ++ z :: after) (.lit [z]) o r := by
  obtain ⟨a, b, rfl, rfl⟩ := ho
  have h : Parses G none (a ++ b ++ [z]) (.lit [z]) (blen a) r := h
  show Parses G none (a ++ b ++ z :: after) (.lit [z]) (blen a) r
  rw [C12_literal a (b ++ [z]) [z] (by simp)] at h
  rw [C12_literal a (b ++ z :: after) [z] (by simp)]
  have : (∃ t, b ++ [z] = [z] ++ t) ↔ ∃ t, b ++ z :: after = [z] ++ t := by
    cases b <;> simp
  rwa [this] at h

/-- **C94 (one line).** What follows a line does not change the record on it. -/
theorem C94_line (h : RecordWise G H z p) (line after : List ι) (st : σ) (r : CRes σ (Val β)) (hr : r ≠ .panic)
    (hc : Constructs G H none (line ++ [z]) (record p z) st 0 r) :
    Constructs G H none (line ++ z :: after) (record p z) st 0 r := by
  have npol : ∀ q, (none : Option (Pat ι β)) = some q → All G (StopsAt G none z) q := fun _ h => by cases h
  have tr : ∀ {r}, Constructs G H none (line ++ [z]) p st 0 r →
      Constructs G H none (line ++ z :: after) p st 0 r ∧ ∀ v st' o', r = .ok v st' o' → Valid line o' := by
    intro r hc
    obtain ⟨-, h2, h3⟩ := C88_terminator_construct z h.text npol h.stops h.values line [] st 0 (valid_zero _) r hc
    have h2 := h2 after
    rw [List.append_assoc] at h2
    exact ⟨h2, h3⟩
  cases r with
  | panic => exact absurd rfl hr
  | ok v st' o' =>
    rw [(C08_suffix_construct p _ st 0).1] at hc ⊢
    obtain ⟨s, o1, h1, h2⟩ := hc
    exact ⟨s, o1, (tr h1).1, lit_same line after o1 ((tr h1).2 _ _ _ rfl) _ h2⟩
  | err e st' o' =>
    rw [(C08_suffix_construct p _ st 0).2] at hc ⊢
    obtain ⟨h0, ⟨o1, h1⟩ | ⟨v, o1, o2, h1, h2⟩⟩ := hc
    · exact ⟨h0, .inl ⟨o1, (tr h1).1⟩⟩
    · exact ⟨h0, .inr ⟨v, o1, o2, (tr h1).1, lit_same line after o1 ((tr h1).2 _ _ _ rfl) _ h2⟩⟩

theorem record_local (h : RecordWise G H z p) : All G Local (record p z) ∧ All G LocalDyn (record p z) := by
  refine ⟨All.intro (by exact trivial) ?_, All.intro (by exact trivial) ?_⟩
  · rintro q (rfl | rfl)
    · exact h.here
    · exact all_lit (by exact trivial)
  · rintro q (rfl | rfl)
    · exact h.closures
    · exact all_lit (by exact trivial)

/-- The lines are read one after the other, wherever they are in the text. -/
theorem built_lines (h : RecordWise G H z p) {lines : List (List ι)} {vs : List (Val β)} {st st' : σ}
    (hl : ReadsLines G H z p lines vs st st') (front tail : List ι) :
    Built G H none (front ++ (lines.flatMap (· ++ [z]) ++ tail)) (record p z) vs st (blen front) st'
      (blen front + blen (lines.flatMap (· ++ [z]))) := by
  induction hl generalizing front with
  | nil st => simpa using Built.nil st (blen front)
  | @cons line lines v vs st st1 st2 hc _ ih =>
    have h1 := C94_line h line (lines.flatMap (· ++ [z]) ++ tail) st _ (by simp) hc
    have h2 := (C27_construct none (fun _ h => by cases h) h.place _ (record_local h).1 (record_local h).2 front
      (line ++ z :: (lines.flatMap (· ++ [z]) ++ tail)) st 0 _).mpr ⟨_, h1, rfl⟩
    have h3 := ih (front ++ (line ++ [z]))
    simp only [List.flatMap_cons, List.append_assoc, List.cons_append, List.nil_append, blen_append, blen_cons,
      CRes.shift, blen_nil, Nat.add_zero, Nat.zero_add, Nat.add_assoc] at h2 h3 ⊢
    exact .cons h2 h3

/-- Reading goes on to the first text that is not a record. -/
theorem read_tail (h : RecordWise G H z p) {lines : List (List ι)} {vs : List (Val β)} {st st1 st2 : σ} {e : Error}
    {o : Nat} {tail : List ι} (hl : ReadsLines G H z p lines vs st st1)
    (hend : Constructs G H none tail (record p z) st1 0 (.err e st2 o)) :
    Built G H none (lines.flatMap (· ++ [z]) ++ tail) (record p z) vs st 0 st1 (blen (lines.flatMap (· ++ [z]))) ∧
    Constructs G H none (lines.flatMap (· ++ [z]) ++ tail) (record p z) st1 (blen (lines.flatMap (· ++ [z])))
      (.err e st2 (blen (lines.flatMap (· ++ [z])))) := by
  constructor
  · simpa using built_lines h hl [] tail
  · have ho : o = 0 := ((C08_suffix_construct p _ st1 0).2 e st2 o |>.mp hend).1
    subst ho
    exact (C27_construct none (fun _ h => by cases h) h.place _ (record_local h).1 (record_local h).2 _
      tail st1 0 _).mpr ⟨_, hend, rfl⟩

theorem readsLines_length {lines : List (List ι)} {vs : List (Val β)} {st st1 : σ}
    (hl : ReadsLines G H z p lines vs st st1) : vs.length = lines.length := by
  induction hl with
  | nil => rfl
  | cons _ _ ih => simp [ih]

/-! ## The property -/

/-- **C94.** If every line, read alone, gives one record, the whole file, read by `collect`,
gives the list of these records, in order, and is used up: no line changes the record of another.
(`hend` is what the last, vain attempt at the end of the text does to the state of the handler.) -/
theorem C94_records (h : RecordWise G H z p) {lines : List (List ι)} {vs : List (Val β)} {st st1 st2 : σ} {e : Error}
    {o : Nat} (hl : ReadsLines G H z p lines vs st st1) (hend : Constructs G H none [] (record p z) st1 0 (.err e st2 o))
    (min : Nat) :
    (min ≤ lines.length → Constructs G H none (lines.flatMap (· ++ [z])) (.collect (record p z) min) st 0
      (.ok (.list vs) st2 (blen (lines.flatMap (· ++ [z]))))) ∧
    (lines.length < min → Constructs G H none (lines.flatMap (· ++ [z])) (.collect (record p z) min) st 0
      (.err .collect st2 0)) := by
  obtain ⟨h1, h2⟩ := read_tail h hl hend
  rw [List.append_nil] at h1 h2
  have hn := readsLines_length hl
  exact ⟨fun hm => ((C15_collect_construct _ min st 0).1 _ _ _).mpr ⟨vs, st1, _, e, rfl, h1, by omega, h2⟩,
    fun hm => ((C15_collect_construct _ min st 0).2.1 _ _ _).mpr ⟨rfl, rfl, vs, st1, _, e, _, h1, by omega, h2⟩⟩

/-- **C94 (a bad line).** At the first line that, read alone, gives no record, `collect` stops: it gives the
records of the lines before, and leaves the position at the beginning of that line, whatever follows it. -/
theorem C94_bad_line (h : RecordWise G H z p) {lines : List (List ι)} {vs : List (Val β)} {st st1 st2 : σ} {e : Error}
    {o : Nat} {bad : List ι} (hl : ReadsLines G H z p lines vs st st1)
    (hbad : Constructs G H none (bad ++ [z]) (record p z) st1 0 (.err e st2 o)) (rest : List ι)
    (min : Nat) (hmin : min ≤ lines.length) :
    Constructs G H none (lines.flatMap (· ++ [z]) ++ (bad ++ z :: rest)) (.collect (record p z) min) st 0
      (.ok (.list vs) st2 (blen (lines.flatMap (· ++ [z])))) := by
  obtain ⟨h1, h2⟩ := read_tail h hl (C94_line h bad rest st1 _ (by simp) hbad)
  have hn := readsLines_length hl
  exact ((C15_collect_construct _ min st 0).1 _ _ _).mpr ⟨vs, st1, _, e, rfl, h1, by omega, h2⟩

/-- **C94 (`repeat`).** The same with `repeat(range)`, for a range without upper end. -/
theorem C94_repeat (h : RecordWise G H z p) {lines : List (List ι)} {vs : List (Val β)} {st st1 st2 : σ} {e : Error}
    {o : Nat} (hl : ReadsLines G H z p lines vs st st1) (hend : Constructs G H none [] (record p z) st1 0 (.err e st2 o))
    (lo : Bound) (hlo : lo.allowsFrom lines.length) :
    Constructs G H none (lines.flatMap (· ++ [z])) (.rep (record p z) ⟨lo, .unb⟩) st 0
      (.ok (.list vs) st2 (blen (lines.flatMap (· ++ [z])))) := by
  obtain ⟨h1, h2⟩ := read_tail h hl hend
  rw [List.append_nil] at h1 h2
  have hn := readsLines_length hl
  exact ((C13_repeat_construct _ ⟨lo, .unb⟩ st 0).1 _ _ _).mpr
    ⟨vs, st1, _, rfl, h1, by rw [hn]; exact hlo, trivial, .inr ⟨trivial, e, h2⟩⟩

/-- **C94 (putting files together).** Two files of records, one behind the other, give the records of the
first and then those of the second. -/
theorem C94_append {l1 l2 : List (List ι)} {v1 v2 : List (Val β)} {st st1 st2 : σ}
    (h1 : ReadsLines G H z p l1 v1 st st1) (h2 : ReadsLines G H z p l2 v2 st1 st2) :
    ReadsLines G H z p (l1 ++ l2) (v1 ++ v2) st st2 := by
  induction h1 with
  | nil => exact h2
  | cons hc _ ih => exact .cons hc (ih h2)

/-- **C94 (a pattern that takes the line end).** If the pattern may get past the line end (a quoted field, say),
the claim is false: two lines that are a record each are one record together. -/
theorem C94_needs_the_line_end :
    let p : Pat Char (List Char) := .or (.lit ['a', '\n', 'b']) (.or (.lit ['a']) (.lit ['b']))
    ReadsLines (σ := Unit) G0 extractH '\n' p [['a'], ['b']] [.base ['a'], .base ['b']] () () ∧
    Constructs (σ := Unit) G0 extractH none ['a', '\n', 'b', '\n'] (.collect (record p '\n') 0) () 0
      (.ok (.list [.base ['a', '\n', 'b']]) () 4) :=
  ⟨.cons ⟨10, rfl⟩ (.cons ⟨10, rfl⟩ (.nil _)), 10, rfl⟩

/-! ## The hypotheses can be met -/

/-- A name and a number: `key=12`. -/
def keyNum : Pat Char (List Char) :=
  .sepOnce (.many1 (.pred Char.isAlpha) .empty) (.lit ['=']) (.many1 (.pred Char.isDigit) .empty)

theorem all_keyNum {P : Pat Char (List Char) → Prop} (h0 : P keyNum) (h1 : P (.many1 (.pred Char.isAlpha) .empty))
    (h2 : P (.lit ['='])) (h3 : P (.many1 (.pred Char.isDigit) .empty)) : All G0 P keyNum := by
  refine All.intro h0 ?_
  rintro q (rfl | rfl | rfl)
  · exact All.intro h1 fun _ h => absurd h id
  · exact all_lit h2
  · exact All.intro h3 fun _ h => absurd h id

theorem keyNum_wise : RecordWise (σ := Unit) G0 extractH '\n' keyNum where
  stops := all_keyNum (by exact trivial) ⟨by decide, trivial⟩ (by simp [StopsAt]) ⟨by decide, trivial⟩
  here := all_keyNum (by exact trivial) (by exact trivial) (by exact trivial) (by exact trivial)
  values := all_keyNum (by exact trivial) (by exact trivial) (by exact trivial) (by exact trivial)
  closures := all_keyNum (by exact trivial) (by exact trivial) (by exact trivial) (by exact trivial)
  text := C88_extract_text_only
  place := C27_extract.1

example : Constructs (σ := Unit) G0 extractH none
    ['a', 'b', '=', '1', '\n', 'c', '=', '2', '3', '\n', '?', '\n', 'd', '=', '4', '\n'] (.collect (record keyNum '\n') 1) () 0
    (.ok (.list [.pair (.base ['a', 'b']) (.base ['1']), .pair (.base ['c']) (.base ['2', '3'])]) () 10) :=
  C94_bad_line keyNum_wise (lines := [['a', 'b', '=', '1'], ['c', '=', '2', '3']]) (bad := ['?'])
    (.cons ⟨10, rfl⟩ (.cons ⟨10, rfl⟩ (.nil _))) (e := .many1) (o := 0) ⟨10, rfl⟩ ['d', '=', '4', '\n'] 1 (by decide)

example (lines : List (List Char)) (vs : List (Val (List Char)))
    (h : ReadsLines (σ := Unit) G0 extractH '\n' keyNum lines vs () ()) :
    Constructs (σ := Unit) G0 extractH none (lines.flatMap (· ++ ['\n'])) (.collect (record keyNum '\n') 0) () 0
      (.ok (.list vs) () (blen (lines.flatMap (· ++ ['\n'])))) :=
  (C94_records keyNum_wise h (e := .many1) (o := 0) ⟨10, rfl⟩ 0).1 (by omega)

end Neure
