import Verif.PropsFind
import Verif.PropsLocal
import Verif.PropsSettledCtor
import Verif.PropsTerm
/-!
# C93: searching a text line by line
-/

namespace Neure

set_option linter.unusedSectionVars false
set_option linter.unusedSimpArgs false

open Demo

variable {ι β : Type} [Item ι] {G : Rules ι β} {p : Pat ι β} {z : ι}

/-! ## Specification -/

/-- What is asked of a pattern: it cannot get past the item `z`, looks at the text from its position on only,
does not look inside characters, gives spans that agree with the positions, and returns. -/
structure LineWise (G : Rules ι β) (z : ι) (p : Pat ι β) : Prop where
  stops : All G (StopsAt G none z) p
  here : All G Local p
  aligned : All G Aligned p
  tidy : All G Tidy p
  returns : ∀ d o, o ≤ blen d → Matches G none d p o ∨ Fails G none d p o

/-! ## Hits before and behind the line end -/

theorem noHit_iff (h : LineWise G z p) {d : List ι} {j : Nat} (hj : j ≤ blen d) :
    NoHit G none d p j ↔ ∀ s o', ¬ Hit G none d p j s o' := by
  constructor
  · intro hn s o'; exact noHit_not_hit hn
  · intro hh
    rcases h.returns d j hj with ⟨s, o', hs⟩ | hf
    · by_cases h0 : s.len = 0
      · exact .inr ⟨s, o', hs, h0⟩
      · exact absurd ⟨hs, h0⟩ (hh s o')
    · exact .inl hf

theorem hit_valid (h : LineWise G z p) {d : List ι} {j : Nat} (hj : j ≤ blen d) {s : Span} {o' : Nat}
    (hh : Hit G none d p j s o') : Valid d j := by
  refine Classical.byContradiction fun hv => ?_
  obtain ⟨⟨n, hn⟩, h0⟩ := hh
  have := stuck_inv G n d p j hv hj h.aligned _ hn
  rw [this.1] at h0
  exact h0 rfl

/-- A boundary of `before ++ z :: after` before the end of `z` is a boundary of `before`. -/
theorem valid_before {before after : List ι} {j : Nat} (hv : Valid (before ++ z :: after) j)
    (hj : j < blen before + Item.size z) : Valid before j := by
  obtain ⟨a, b, he, rfl⟩ := hv
  rcases List.append_eq_append_iff.mp he with ⟨c, rfl, hc⟩ | ⟨c, rfl, hc⟩
  · cases c with
    | nil => exact ⟨before, [], by simp, by simp⟩
    | cons x c =>
      simp only [List.cons_append, List.cons.injEq] at hc
      obtain ⟨rfl, -⟩ := hc
      simp only [blen_append, blen_cons] at hj
      omega
  · exact ⟨a, c, rfl, rfl⟩

theorem hit_before (h : LineWise G z p) {before after : List ι} {j : Nat} (hj : j < blen before + Item.size z)
    (s : Span) (o' : Nat) :
    (Hit G none (before ++ z :: after) p j s o' ↔ Hit G none (before ++ [z]) p j s o') ∧
    (Hit G none (before ++ [z]) p j s o' → o' ≤ blen before) := by
  have npol : ∀ q, (none : Option (Pat ι β)) = some q → All G (StopsAt G none z) q := fun _ h => by cases h
  by_cases hv : Valid before j
  · have hle : j ≤ blen (before ++ [z]) := by simp; omega
    have hr : ∃ r, Runs G none (before ++ [z]) p j r := by
      rcases h.returns (before ++ [z]) j hle with ⟨s, o', hs⟩ | ⟨e, o', hs⟩
      · exact ⟨_, hs⟩
      · exact ⟨_, hs⟩
    obtain ⟨r, hr⟩ := hr
    obtain ⟨-, h2, h3⟩ := C88_terminator z npol h.stops before [] j hv r hr
    have h2 := h2 after
    rw [List.append_assoc] at h2
    have h2 : Runs G none (before ++ z :: after) p j r := h2
    constructor
    · constructor
      · rintro ⟨a, b⟩
        cases a.unique h2
        exact ⟨hr, b⟩
      · rintro ⟨a, b⟩
        cases a.unique hr
        exact ⟨h2, b⟩
    · rintro ⟨a, b⟩
      cases a.unique hr
      obtain ⟨c, d, rfl, rfl⟩ := h3 s o' rfl
      simp
  · constructor
    · constructor
      · intro hh
        exact absurd (valid_before (hit_valid h (by simp; omega) hh) hj) hv
      · intro hh
        exact absurd (valid_before (hit_valid h (by simp; omega) hh) hj) hv
    · intro hh
      exact absurd (valid_before (hit_valid h (by simp; omega) hh) hj) hv

theorem hit_after (h : LineWise G z p) (pre d : List ι) (j : Nat) (s : Span) (o' : Nat) :
    Hit G none (pre ++ d) p (blen pre + j) s o' ↔
      ∃ s0 o0, Hit G none d p j s0 o0 ∧ s = s0.shift (blen pre) ∧ o' = blen pre + o0 := by
  unfold Hit
  rw [C27_depends_only_on_remaining_input none (fun _ h => by cases h) p h.here pre d j]
  constructor
  · rintro ⟨⟨r0, hr, he⟩, h0⟩
    cases r0 with
    | ok s0 o0 => simp only [Res.shift, Res.ok.injEq] at he; obtain ⟨rfl, rfl⟩ := he; exact ⟨s0, o0, ⟨hr, h0⟩, rfl, rfl⟩
    | err => cases he
    | panic => cases he
  · rintro ⟨s0, o0, ⟨hr, h0⟩, rfl, rfl⟩
    exact ⟨⟨_, hr, rfl⟩, h0⟩

theorem noHit_after (h : LineWise G z p) (pre d : List ι) (j : Nat) (hj : j ≤ blen d) :
    NoHit G none (pre ++ d) p (blen pre + j) ↔ NoHit G none d p j := by
  rw [noHit_iff h (by simp; omega), noHit_iff h hj]
  constructor
  · intro hh s o' h1
    exact hh _ _ ((hit_after h pre d j _ _).mpr ⟨s, o', h1, rfl, rfl⟩)
  · intro hh s o' h1
    obtain ⟨s0, o0, h2, -⟩ := (hit_after h pre d j _ _).mp h1
    exact hh _ _ h2

/-- The hits of a text with something in front of it, from the beginning of the text on. -/
theorem hits_after (h : LineWise G z p) (pre d : List ι) {o : Nat} {ss : List Span} {e : Nat}
    (hh : HitsFrom G d p o ss e) : HitsFrom G (pre ++ d) p (blen pre + o) (ss.map (·.shift (blen pre))) (blen pre + e) := by
  induction hh with
  | nil h1 h2 =>
    refine .nil (fun j hj hj' => ?_) (by simp; omega)
    obtain ⟨i, rfl⟩ : ∃ i, j = blen pre + i := ⟨j - blen pre, by omega⟩
    simp only [blen_append] at hj'
    exact (noHit_after h pre d i (by omega)).mpr (h1 i (by omega) (by omega))
  | @cons o k o' e s l hf _ ih =>
    obtain ⟨h1, h2, h3, h4⟩ := hf
    refine .cons (k := blen pre + k) ⟨by omega, by simp; omega, fun j hj hj' => ?_,
      (hit_after h pre d k _ _).mpr ⟨s, o', h4, rfl, rfl⟩⟩ ih
    obtain ⟨i, rfl⟩ : ∃ i, j = blen pre + i := ⟨j - blen pre, by omega⟩
    exact (noHit_after h pre d i (by omega)).mpr (h3 i (by omega) (by omega))

/-- Positions without a hit may be passed over. -/
theorem hits_later {d : List ι} {o l : Nat} (hol : o ≤ l) (hl : l ≤ blen d)
    (hn : ∀ j, o ≤ j → j < l → NoHit G none d p j) {ss : List Span} {e : Nat} (hh : HitsFrom G d p l ss e) :
    HitsFrom G d p o ss e := by
  cases hh with
  | nil h1 h2 =>
    refine .nil (fun j hj hj' => ?_) (by omega)
    by_cases h : j < l
    · exact hn j hj h
    · exact h1 j (by omega) hj'
  | cons hf hr =>
    obtain ⟨h1, h2, h3, h4⟩ := hf
    refine .cons ⟨by omega, h2, fun j hj hj' => ?_, h4⟩ hr
    by_cases h : j < l
    · exact hn j hj h
    · exact h3 j (by omega) hj'

/-- The hits of a first line and those of the text behind it are the hits of the whole text. -/
theorem hits_lines (h : LineWise G z p) (before after : List ι) {s1 s2 : List Span} {e1 e2 o : Nat}
    (h1 : HitsFrom G (before ++ [z]) p o s1 e1) (ho : o ≤ blen before + Item.size z)
    (h2 : HitsFrom G after p 0 s2 e2) :
    HitsFrom G (before ++ z :: after) p o (s1 ++ s2.map (·.shift (blen (before ++ [z])))) (blen (before ++ [z]) + e2) := by
  have hsz := Item.size_pos z
  have hL : blen (before ++ [z]) = blen before + Item.size z := by simp
  have nohit : ∀ j, j < blen before + Item.size z → NoHit G none (before ++ [z]) p j →
      NoHit G none (before ++ z :: after) p j := by
    intro j hj hn
    rw [noHit_iff h (by simp; omega)] at hn ⊢
    intro s o' hh
    exact hn s o' ((hit_before h hj s o').1.mp hh)
  generalize hd : before ++ [z] = d1 at h1
  induction h1 with
  | nil n1 n2 =>
    subst hd
    refine hits_later (l := blen (before ++ [z])) (by omega) (by simp) (fun j hj hj' => ?_) ?_
    · exact nohit j (by omega) (n1 j hj hj')
    · have := hits_after h (before ++ [z]) after h2
      simpa using this
  | @cons o k o' e s l hf _ ih =>
    subst hd
    obtain ⟨f1, f2, f3, f4⟩ := hf
    have hk : k < blen before + Item.size z := by omega
    have hb := (hit_before h (after := after) hk s o')
    refine .cons (k := k) ⟨f1, by simp; omega, fun j hj hj' => nohit j (by omega) (f3 j hj hj'), hb.1.mpr f4⟩ (ih ?_)
    have := hb.2 f4
    omega

/-! ## The property -/

/-- **C93 (spans).** What `find_all` yields on a text is what it yields on the first line, followed by what it
yields on the text behind the line, moved by the length of the line. -/
theorem C93_spans (h : LineWise G z p) (before after : List ι) {l1 l2 : List Span} {e1 e2 : Nat}
    (h1 : FindsAll G none (before ++ [z]) p .span 0 (.ok l1 e1)) (h2 : FindsAll G none after p .span 0 (.ok l2 e2)) :
    FindsAll G none (before ++ z :: after) p .span 0
      (.ok (l1 ++ l2.map (·.shift (blen (before ++ [z])))) (blen (before ++ [z]) + e2)) := by
  obtain ⟨s1, a1, b1⟩ := (C29_find_all h.tidy extractable_span 0 e1 l1).mp h1
  obtain ⟨s2, a2, b2⟩ := (C29_find_all h.tidy extractable_span 0 e2 l2).mp h2
  have inj : ∀ {a b : List Span} {d : List ι}, a.map (Extract.invoke (ι := ι) .span d) = b.map .ok → a = b := by
    intro a b d hh
    refine List.map_inj_right (f := (Out.ok : Span → Out Span)) (fun x y e => by cases e; rfl) |>.mp ?_
    exact hh
  have := inj b1; subst this
  have := inj b2; subst this
  have hk := hits_lines h before after a1 (by omega) a2
  exact (C29_find_all h.tidy extractable_span 0 _ _).mpr ⟨_, hk, rfl⟩

theorem slices_front {d x : List ι} {ss : List Span} {l : List (List ι)}
    (h : ss.map (Extract.invoke .slice d) = l.map .ok) : ss.map (Extract.invoke .slice (d ++ x)) = l.map .ok := by
  induction ss generalizing l with
  | nil => cases l <;> simp_all
  | cons s ss ih =>
    cases l with
    | nil => cases h
    | cons t l =>
      simp only [List.map_cons, List.cons.injEq] at h ⊢
      refine ⟨?_, ih h.2⟩
      obtain ⟨a, b, rfl, h1, h2⟩ := origSub_ok.mp h.1
      exact origSub_ok.mpr ⟨a, b ++ x, by simp, h1, h2⟩

theorem slices_behind {pre d : List ι} {ss : List Span} {l : List (List ι)}
    (h : ss.map (Extract.invoke .slice d) = l.map .ok) :
    (ss.map (·.shift (blen pre))).map (Extract.invoke .slice (pre ++ d)) = l.map .ok := by
  induction ss generalizing l with
  | nil => cases l <;> simp_all
  | cons s ss ih =>
    cases l with
    | nil => cases h
    | cons t l =>
      simp only [List.map_cons, List.cons.injEq] at h ⊢
      refine ⟨?_, ih h.2⟩
      obtain ⟨a, b, rfl, h1, h2⟩ := origSub_ok.mp h.1
      exact origSub_ok.mpr ⟨pre ++ a, b, by simp, by simp [Span.shift, h1], h2⟩

/-- **C93 (texts).** The texts `find_all` yields on a text are those it yields on the first line, followed by
those it yields on the text behind the line. -/
theorem C93_texts (h : LineWise G z p) (before after : List ι)
    {l1 l2 : List (List ι)} {e1 e2 : Nat}
    (h1 : FindsAll G none (before ++ [z]) p .slice 0 (.ok l1 e1)) (h2 : FindsAll G none after p .slice 0 (.ok l2 e2)) :
    FindsAll G none (before ++ z :: after) p .slice 0 (.ok (l1 ++ l2) (blen (before ++ [z]) + e2)) := by
  obtain ⟨s1, a1, b1⟩ := (C29_find_all h.tidy (extractable_slice (stops_bounded h.stops) h.aligned) 0 e1 l1).mp h1
  obtain ⟨s2, a2, b2⟩ := (C29_find_all h.tidy (extractable_slice (stops_bounded h.stops) h.aligned) 0 e2 l2).mp h2
  have hk := hits_lines h before after a1 (by omega) a2
  refine (C29_find_all h.tidy (extractable_slice (stops_bounded h.stops) h.aligned) 0 _ _).mpr ⟨_, hk, ?_⟩
  have e : before ++ z :: after = before ++ [z] ++ after := by simp
  rw [e, List.map_append, List.map_append, slices_front b1, slices_behind b2]

/-- **C93.** Searching a text made of lines, and searching its lines one after the other, yields the same
texts in the same order: if `hits line` is what `find_all` yields on a line with its end, the whole text
yields the hits of all the lines. -/
theorem C93_lines (h : LineWise G z p) (lines : List (List ι))
    (hits : List ι → List (List ι))
    (hh : ∀ line ∈ lines, ∃ e, FindsAll G none (line ++ [z]) p .slice 0 (.ok (hits line) e)) :
    ∃ e, FindsAll G none (lines.flatMap (· ++ [z])) p .slice 0 (.ok (lines.flatMap hits) e) := by
  induction lines with
  | nil =>
    refine ⟨0, (C29_find_all h.tidy (extractable_slice (stops_bounded h.stops) h.aligned) 0 0 []).mpr ⟨[], .nil ?_ ?_, rfl⟩⟩
    · intro j _ hj; simp at hj
    · simp
  | cons line lines ih =>
    obtain ⟨e1, h1⟩ := hh line (by simp)
    obtain ⟨e2, h2⟩ := ih fun l hl => hh l (by simp [hl])
    have := C93_texts h line (lines.flatMap (· ++ [z])) h1 h2
    exact ⟨_, by simpa using this⟩

/-- **C93 (every text has hits).** On every text the search gives some list of texts, so the lists the other
theorems speak of exist. -/
theorem C93_hits_exist (h : LineWise G z p) (d : List ι) :
    ∃ l e, FindsAll G none d p .slice 0 (.ok l e) := by
  obtain ⟨l, e, hh, -⟩ := C29_find_all_ends h.tidy (extractable_slice (d := d) (stops_bounded h.stops) h.aligned) 0
    (fun j _ hj => h.returns d j (by omega))
  exact ⟨l, e, hh⟩

/-- **C93 (one function).** There is one function from lines to lists of texts that describes the search in
every text made of lines. -/
theorem C93_line_by_line (h : LineWise G z p) :
    ∃ hits : List ι → List (List ι),
      (∀ line, ∃ e, FindsAll G none (line ++ [z]) p .slice 0 (.ok (hits line) e)) ∧
      ∀ lines : List (List ι), ∃ e,
        FindsAll G none (lines.flatMap (· ++ [z])) p .slice 0 (.ok (lines.flatMap hits) e) := by
  refine ⟨fun line => Classical.choose (C93_hits_exist h (line ++ [z])), fun line => ?_, fun lines => ?_⟩
  · exact Classical.choose_spec (C93_hits_exist h (line ++ [z]))
  · exact C93_lines h lines _ fun line _ => Classical.choose_spec (C93_hits_exist h (line ++ [z]))

/-- **C93 (a pattern that takes the line end).** Without the condition on the line end the claim is false: a
pattern that spans two lines is found in the text and in none of its lines. -/
theorem C93_needs_the_line_end :
    let p : Pat Char Nat := .lit ['a', '\n', 'b']
    FindsAll G0 none ['a', '\n'] p .slice 0 (.ok [] 2) ∧ FindsAll G0 none ['b', '\n'] p .slice 0 (.ok [] 2) ∧
    FindsAll G0 none (['a', '\n'] ++ ['b', '\n']) p .slice 0 (.ok [['a', '\n', 'b']] 4) :=
  ⟨⟨10, by decide⟩, ⟨10, by decide⟩, ⟨10, by decide⟩⟩

/-- **C93 (the start anchor).** A pattern that asks for the beginning of the text is found at the beginning of
every line when lines are searched one by one, and only at the first when the text is searched. -/
theorem C93_needs_no_start_anchor :
    let p : Pat Char Nat := .thn .start (.lit ['a'])
    FindsAll G0 none ['a', '\n'] p .slice 0 (.ok [['a']] 2) ∧
    FindsAll G0 none (['a', '\n'] ++ ['a', '\n']) p .slice 0 (.ok [['a']] 4) :=
  ⟨⟨10, by decide⟩, ⟨10, by decide⟩⟩

/-! ## The hypotheses can be met -/

/-- Words: `regex!` `[a-zA-Z]+`. -/
def lineWord : Pat Char Nat := .many1 (.pred Char.isAlpha) .empty

theorem all_lineWord {P : Pat Char Nat → Prop} (h : P lineWord) : All G0 P lineWord :=
  All.intro h fun _ hc => absurd hc id

theorem lineWord_wise : LineWise G0 '\n' lineWord where
  stops := all_lineWord ⟨by decide, trivial⟩
  here := all_lineWord (by simp [Local, lineWord, Cond.Local])
  aligned := all_lineWord (by simp [Aligned, lineWord])
  tidy := all_lineWord (by simp [Tidy, lineWord])
  returns := fun d o ho => C35_terminates (fun _ h => by cases h) _
    (all_lineWord ⟨trivial, trivial, ⟨_, fun q h => absurd h id⟩⟩) d o ho

-- the words of a text are the words of its lines
example : ∃ hits : List Char → List (List Char),
    (∀ line, ∃ e, FindsAll G0 none (line ++ ['\n']) lineWord .slice 0 (.ok (hits line) e)) ∧
    ∀ lines : List (List Char), ∃ e,
      FindsAll G0 none (lines.flatMap (· ++ ['\n'])) lineWord .slice 0 (.ok (lines.flatMap hits) e) :=
  C93_line_by_line lineWord_wise
example : FindsAll G0 none ['a', 'b', ' ', 'c', '\n', 'd', '\n'] lineWord .slice 0 (.ok [['a', 'b'], ['c'], ['d']] 7) := by
  have h1 : FindsAll G0 none (['a', 'b', ' ', 'c'] ++ ['\n']) lineWord .slice 0 (.ok [['a', 'b'], ['c']] 5) := ⟨12, by decide⟩
  have h2 : FindsAll G0 none ['d', '\n'] lineWord .slice 0 (.ok [['d']] 2) := ⟨12, by decide⟩
  exact C93_texts lineWord_wise _ _ h1 h2

-- a recursive pattern: nested parentheses
theorem parens_wise : LineWise GP '\n' parens where
  stops := all_parens (by exact trivial) (by simp [StopsAt]) (by exact trivial) (by simp [StopsAt]) (by exact trivial)
  here := all_parens (by exact trivial) (by exact trivial) (by exact trivial) (by exact trivial) (by exact trivial)
  aligned := all_parens (by exact trivial) (by simp [Aligned]) (by exact trivial) (by simp [Aligned]) (by exact trivial)
  tidy := all_parens (by exact trivial) (by exact trivial) (by exact trivial) (by exact trivial) (by exact trivial)
  returns := fun d o ho => C35_terminates (fun _ h => by cases h) _ (parens_terminates none fun _ h => by cases h) d o ho

example (before after : List Char) {l1 l2 : List Span} {e1 e2 : Nat}
    (h1 : FindsAll GP none (before ++ ['\n']) parens .span 0 (.ok l1 e1))
    (h2 : FindsAll GP none after parens .span 0 (.ok l2 e2)) :
    FindsAll GP none (before ++ '\n' :: after) parens .span 0
      (.ok (l1 ++ l2.map (·.shift (blen (before ++ ['\n'])))) (blen (before ++ ['\n']) + e2)) :=
  C93_spans parens_wise before after h1 h2

end Neure
