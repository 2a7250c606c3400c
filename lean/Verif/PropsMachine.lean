import Verif.MachineRelease
import Verif.MachineCtor
import Verif.PropsCore
/-!
# C87: the same results in every build, for lengths below `2^63`

The other properties are about natural numbers.  Here: a compiled program, with `usize`
arithmetic, with or without overflow checks and debug assertions, computes the same.
-/

namespace Neure

open Demo

set_option linter.unusedSectionVars false

variable {ι β σ : Type} [Item ι] {G : Rules ι β} {d : List ι} {o : Nat}

/-- **C87 (matching).** On a text that fits into memory, a pattern whose numbers fit into
`usize` returns in every build what it returns on natural numbers, if that is not a panic:
debug and release builds agree. -/
theorem C87_same_in_every_build {pol : Option (Pat ι β)} (hpol : FitsWordPol G pol)
    (hd : blen d ≤ isizeMax) {p : Pat ι β} (hp : All G FitsWord p) (ho : o ≤ blen d) {r : Res Span}
    (h : Runs G pol d p o r) (hr : r ≠ .panic) (b : Build) (r' : Res Span) :
    RunsOn b G pol d p o r' ↔ r' = r := by
  obtain ⟨n, hn⟩ := h
  have hs := agree_tryMat (b := b) n hpol hd hp ho
  rw [hn] at hs
  have hrun : RunsOn b G pol d p o r := by
    cases r with
    | panic => exact absurd rfl hr
    | ok s o' => exact ⟨n, hs.1⟩
    | err e o' => exact ⟨n, hs.1⟩
  exact ⟨fun h => h.unique hrun, fun h => h ▸ hrun⟩

example (b : Build) : RunsOn b GP none ['(', '(', ')', ')'] parens 0 (.ok ⟨0, 4⟩ 4) :=
  (C87_same_in_every_build (fun _ h => by cases h) (by decide)
    (all_parens trivial trivial trivial trivial trivial) (by decide) ⟨20, by decide⟩ (by decide) b _).2 rfl

/-- With a policy. -/
example (b : Build) : RunsOn b GP (some spaces) [' ', '(', ' ', ')'] parens 0 (.ok ⟨1, 3⟩ 4) :=
  (C87_same_in_every_build (fun q h => by cases h; exact all_spaces trivial) (by decide)
    (all_parens trivial trivial trivial trivial trivial) (by decide) ⟨20, by decide⟩ (by decide) b _).2 rfl

/-- **C87 (panics are those of a debug build).** What the model says, panics included,
is what a debug build does. -/
theorem C87_dev_is_the_model {pol : Option (Pat ι β)} (hpol : FitsWordPol G pol)
    (hd : blen d ≤ isizeMax) {p : Pat ι β} (hp : All G FitsWord p) (ho : o ≤ blen d) {r : Res Span}
    (h : Runs G pol d p o r) : RunsOn .dev G pol d p o r := by
  obtain ⟨n, hn⟩ := h
  have hs := agree_tryMat (b := .dev) n hpol hd hp ho
  rw [hn] at hs
  cases r with
  | panic => exact ⟨n, hs rfl⟩
  | ok s o' => exact ⟨n, hs.1⟩
  | err e o' => exact ⟨n, hs.1⟩

/-- The panicking pattern of C04 meets the hypotheses. -/
example : ∃ p : Pat Char Nat, All G0 FitsWord p ∧ Runs G0 none ['a', 'b', 'c'] p 0 .panic :=
  ⟨.thn (.ltm .array [(.lit ['a', 'b', 'c'], none), (.lit ['a'], none)]) (.lit ['b']),
    All.intro (P := FitsWord) (by exact trivial) fun q hq => by
    rcases hq with rfl | rfl
    · refine All.intro (P := FitsWord) (by exact trivial) fun r hr => ?_
      obtain ⟨it, hit, rfl⟩ := hr
      simp only [List.mem_cons, List.not_mem_nil, or_false] at hit
      rcases hit with rfl | rfl <;> exact all_lit trivial
    · exact all_lit trivial, C04_ltm_counterexample⟩

/-- **C87 (no panic in any build).** Patterns that cannot panic on natural numbers (C04)
cannot panic in any build, if matching returns. -/
theorem C87_safe_everywhere {pol : Option (Pat ι β)} (hpol : FitsWordPol G pol) (hs : SafePol G pol)
    (hd : blen d ≤ isizeMax) {p : Pat ι β} (hp : All G FitsWord p) (hps : All G (Safe G pol) p)
    (ho : o ≤ blen d) {r : Res Span} (h : Runs G pol d p o r) (b : Build) (r' : Res Span) :
    (RunsOn b G pol d p o r' ↔ r' = r) ∧ r ≠ .panic :=
  have hr : r ≠ .panic := fun e => C04_no_panic G pol hs d p hps o ho (e ▸ h)
  ⟨C87_same_in_every_build hpol hd hp ho h hr b r', hr⟩

example : All GP FitsWord parens ∧ All GP (Safe GP none) parens ∧
    Runs GP none ['(', ')', 'x'] parens 0 (.ok ⟨0, 2⟩ 2) :=
  ⟨all_parens trivial trivial trivial trivial trivial, all_parens trivial trivial trivial trivial trivial,
    20, by decide⟩

/-- **C87 (building values).** The same for `construct`, for evaluations of fewer than
`2^64` nested calls and iterations (a handler with state may end a loop that does not move
after any number of iterations). -/
theorem C87_construct {H H' : Handler ι β σ} {pol : Option (Pat ι β)} (hpol : FitsWordPol G pol)
    (hH : HandlerSame H H') (hd : blen d ≤ isizeMax) {p : Pat ι β} (hp : All G FitsWord p)
    (ho : o ≤ blen d) {st : σ} {n : Nat} (hn : n ≤ 2 ^ 64 ∨ Subsingleton σ) {r : CRes σ (Val β)}
    (h : con G H n pol d p st o = some r) (b : Build) :
    (r ≠ .panic → ∀ r', ConstructsOn b G H' pol d p st o r' ↔ r' = r) ∧
      (r = .panic → ConstructsOn .dev G H' pol d p st o .panic) := by
  have hs := same_con (b := b) hpol hH hd n hn p hp st o ho
  have hsd := same_con (b := .dev) hpol hH hd n hn p hp st o ho
  rw [h] at hs hsd
  refine ⟨fun hr r' => ?_, fun hr => ?_⟩
  · have hrun : ConstructsOn b G H' pol d p st o r := by
      cases r with
      | panic => exact absurd rfl hr
      | ok v s o' => exact ⟨n, hs.1⟩
      | err e s o' => exact ⟨n, hs.1⟩
    exact ⟨fun h => h.unique hrun, fun h => h ▸ hrun⟩
  · subst hr
    exact ⟨n, hsd rfl⟩

/-- **C87 (stateless handlers).** Without state there is no such bound: whatever `construct`
returns on natural numbers, it returns in every build. -/
theorem C87_construct_stateless {H H' : Handler ι β Unit} {pol : Option (Pat ι β)} (hpol : FitsWordPol G pol)
    (hH : HandlerSame H H') (hd : blen d ≤ isizeMax) {p : Pat ι β} (hp : All G FitsWord p)
    (ho : o ≤ blen d) {r : CRes Unit (Val β)} (h : Constructs G H pol d p () o r) (b : Build) :
    (r ≠ .panic → ∀ r', ConstructsOn b G H' pol d p () o r' ↔ r' = r) ∧
      (r = .panic → ConstructsOn .dev G H' pol d p () o .panic) :=
  h.elim fun _ hn => C87_construct hpol hH hd hp ho (.inr inferInstance) hn b

/-- **C87 (`ctor`).** In particular for the handler of `ctor`, which slices the text at
the span with `usize` arithmetic. -/
theorem C87_ctor {G : Rules ι (List ι)} {pol : Option (Pat ι (List ι))} (hpol : FitsWordPol G pol)
    (hd : blen d ≤ isizeMax) {p : Pat ι (List ι)} (hp : All G FitsWord p)
    (ho : o ≤ blen d) {r : CRes Unit (Val (List ι))}
    (h : Constructs G extractH pol d p () o r) (hr : r ≠ .panic) (b : Build) (r' : CRes Unit (Val (List ι))) :
    ConstructsOn b G (extractM b) pol d p () o r' ↔ r' = r :=
  (C87_construct_stateless hpol (extract_same b) hd hp ho h b).1 hr r'

/-- `'a'.pat().collect()` on `"aab"`. -/
example (b : Build) : ConstructsOn b G0 (extractM b) none ['a', 'a', 'b'] (.collect (.lit ['a']) 1) () 0
    (.ok (.list [.base ['a'], .base ['a']]) () 2) :=
  (C87_ctor (fun _ h => by cases h) (by decide)
    (All.intro (P := FitsWord) (by exact trivial) fun q hq => by cases hq; exact all_lit trivial) (by decide)
    ⟨10, rfl⟩ (fun h => by cases h) b _).2 rfl

/-- **C87 (release builds).** A release build does not panic at all: for patterns whose
closures do not panic, on every text and at every position, even past the end. -/
theorem C87_release_no_panic {pol : Option (Pat ι β)} (hpol : CalmPol G pol) {p : Pat ι β}
    (hp : All G Calm p) (d : List ι) (o : Nat) : ¬ RunsOn .release G pol d p o .panic := by
  rintro ⟨n, hn⟩
  unfold tryMatM matWith at hn
  cases pol with
  | none => exact np_parse n none hpol p hp d o hn
  | some w =>
    exact np_caseR (np_parse n none (fun _ h => by cases h) w (hpol w rfl) d o)
      (fun _ o' => np_parse n (some w) hpol p hp d o') (fun e o' => np_err) hn

example : All GP Calm parens ∧ RunsOn .release GP none ['('] parens 7 (.err .outOfBound 7) :=
  ⟨all_parens trivial trivial trivial trivial trivial, 20, by decide⟩

/-- **C87 (merging spans).** `add_assign` of two spans inside a text: a debug build panics
exactly if the second begins before the first begins or ends before the first ends; if it
does not, and in a release build always (as long as the second does not end before the first
begins), the result goes from the beginning of the first to the end of the second. -/
theorem C87_add_assign {s t : Span} (hs : s.beg + s.len ≤ isizeMax) (ht : t.beg + t.len ≤ isizeMax)
    (h : s.beg ≤ t.beg + t.len) :
    s.addAssignM .release t = some ⟨s.beg, t.beg + t.len - s.beg⟩ ∧
    s.addAssignM .dev t = if s.beg ≤ t.beg ∧ s.beg + s.len ≤ t.beg + t.len then
      some ⟨s.beg, t.beg + t.len - s.beg⟩ else none := by
  have hw := wordSize_eq
  have hi := isizeMax_eq
  have hadd : ∀ b : Build, b.add t.len t.beg = some (t.len + t.beg) := fun b => Build.add_fits (by omega)
  have hadd' : ∀ b : Build, b.add s.beg s.len = some (s.beg + s.len) := fun b => Build.add_fits (by omega)
  constructor
  · have hb : Build.release.debugAssertions = false := rfl
    simp only [Span.addAssignM, hb, Bool.false_and, Bool.false_eq_true, if_false, hadd, hadd', Option.bind_some]
    by_cases hle : s.beg + s.len ≤ t.len + t.beg
    · rw [Build.sub_fits hle, Option.bind_some, Build.add_fits (by omega)]
      simp only [Option.map_some, Option.some.injEq, Span.mk.injEq, true_and]
      omega
    · have : Build.release.sub (t.len + t.beg) (s.beg + s.len)
          = some (t.len + t.beg + wordSize - (s.beg + s.len)) := by
        simp only [Build.sub, hle, if_false, Build.release, Bool.false_eq_true]
        rw [Nat.mod_eq_of_lt (by omega)]
      rw [this, Option.bind_some]
      have : Build.release.add s.len (t.len + t.beg + wordSize - (s.beg + s.len))
          = some (t.beg + t.len - s.beg) := by
        have h1 : ¬ s.len + (t.len + t.beg + wordSize - (s.beg + s.len)) < wordSize := by omega
        simp only [Build.add, h1, if_false, Build.release, Bool.false_eq_true, Option.some.injEq]
        have h2 : s.len + (t.len + t.beg + wordSize - (s.beg + s.len)) = (t.beg + t.len - s.beg) + wordSize := by omega
        rw [h2, Nat.add_mod_right, Nat.mod_eq_of_lt (by omega)]
      rw [this]
      rfl
  · have hb : Build.dev.debugAssertions = true := rfl
    simp only [Span.addAssignM, hb, Bool.true_and, hadd, hadd', Option.bind_some]
    by_cases h1 : s.beg ≤ t.beg
    · by_cases hle : s.beg + s.len ≤ t.len + t.beg
      · have h2 : s.beg + s.len ≤ t.beg + t.len := by omega
        rw [Build.sub_fits hle, Option.bind_some, Build.add_fits (by omega)]
        simp only [ge_iff_le, h1, h2, decide_true, Bool.not_true, Bool.false_eq_true, if_false, Option.map_some,
          and_self, if_true, Option.some.injEq, Span.mk.injEq, true_and]
        omega
      · have h2 : ¬ s.beg + s.len ≤ t.beg + t.len := by omega
        simp [h1, h2, Build.sub, hle, Build.dev]
    · simp [h1]

example : Span.addAssignM .release ⟨0, 3⟩ ⟨1, 1⟩ = some ⟨0, 2⟩ ∧ Span.addAssignM .dev ⟨0, 3⟩ ⟨1, 1⟩ = none ∧
    Span.addAssignM .dev ⟨0, 1⟩ ⟨3, 2⟩ = some ⟨0, 5⟩ := by decide

theorem scanM_count (b : Build) {test : Nat × ι → Option (Out Bool)} {more : Nat → Bool}
    (ht : ∀ pr, ∃ t, test pr = some (.ok t)) :
    ∀ (it : List (Nat × ι)) (cnt : Nat) (beg : Option Nat), cnt + it.length < wordSize →
      ∃ s, scanM b test more cnt beg it = some (.ok s) ∧ s.cnt ≤ cnt + it.length
  | [], cnt, beg, _ => ⟨_, rfl, Nat.le_refl _⟩
  | pr :: it, cnt, beg, h => by
    simp only [List.length_cons] at h ⊢
    rw [scanM]
    split
    · obtain ⟨t, ht'⟩ := ht pr
      rw [ht']
      cases t with
      | false => exact ⟨_, rfl, by simp only; omega⟩
      | true =>
        simp only
        rw [Build.add_fits (by omega)]
        obtain ⟨s, hs, hle⟩ := scanM_count b ht it (cnt + 1) (beg.or (some pr.1)) (by omega)
        exact ⟨s, hs, by omega⟩
    · exact ⟨_, rfl, by simp only; omega⟩

/-- **C87 (overflow of `between`'s minimum).** If the number of bytes that
`between::<M, N>` expects at least does not fit into `usize`, and the rest of the text
has fewer than `M` bytes: the pattern cannot match, but a debug build panics instead of
failing.  A release build fails as it should. -/
theorem C87_between_overflow (hd : blen d ≤ isizeMax) (hv : Valid d o) {m n : Nat} {u : Neu ι}
    (hm : 2 ^ 64 ≤ m * u.minLength) (hs : blen d - o < m) :
    RunsOn .dev G none d (.between m n u .empty) o .panic ∧
      RunsOn .release G none d (.between m n u .empty) o (.err .between o) := by
  have hw := wordSize_eq
  have hi := isizeMax_eq
  have ho : o ≤ blen d := hv.le
  obtain ⟨l, hl⟩ := valid_iff_dropB.1 hv
  have hpk : ∀ b : Build, peekM b d o = .ok (indices 0 l) := fun b => by
    rw [peekM_eq hd ho]
    exact peek_eq hl
  have hbl : blen l = blen d - o := by
    obtain ⟨pre, h1, h2⟩ := dropB_eq_some.1 hl
    rw [h1, blen_append]
    omega
  have hlen : (indices 0 l).length ≤ blen d - o := by
    rw [indices_length]
    exact hbl ▸ length_le_blen l
  constructor
  · refine ⟨2, ?_⟩
    simp only [tryMatM, matWith, parseM, stepM, betweenM, hpk, caseO]
    rw [remM_eq ho]
    have : Build.dev.mul m u.minLength = none := by
      have : ¬ m * u.minLength < wordSize := by omega
      simp [Build.mul, this, Build.dev]
    rw [this]
    rfl
  · refine ⟨2, ?_⟩
    show betweenM .release (matWith (parseM .release G 1) none) d m n u .empty o = _
    generalize matWith (parseM .release G 1) none = mt
    simp only [betweenM, hpk]
    simp only [caseO]
    rw [remM_eq ho]
    obtain ⟨v, hv⟩ := rel_mul m u.minLength
    rw [hv]
    simp only [opK]
    split
    · obtain ⟨s, hs', hle⟩ := scanM_count .release (more := fun cnt => decide (cnt < n))
        (test := testItemM .release mt d o u .empty)
        (fun pr => by
          unfold testItemM
          split
          · exact ⟨true, rfl⟩
          · exact ⟨false, rfl⟩) (indices 0 l) 0 none (by omega)
      rw [hs']
      have : ¬ s.cnt ≥ m := by omega
      simp [this]
    · rfl

/-- `'é'.between::<{1 << 63}, …>()` on `"é"`. -/
example : (2 : Nat) ^ 64 ≤ 2 ^ 63 * (Neu.item 'é' : Neu Char).minLength ∧ Valid ['é'] 0 ∧
    blen ['é'] - 0 < 2 ^ 63 ∧
    Runs (β := Nat) G0 none ['é'] (.between (2 ^ 63) (2 ^ 63) (.item 'é') .empty) 0 (.err .between 0) :=
  ⟨by decide, ⟨[], ['é'], rfl, rfl⟩, by decide, 3, by decide⟩

/-- **Past the end.** A debug build panics where a release build returns: `consume(1)`
succeeds there, with a span outside of the text. -/
theorem C87_past_end_counterexample :
    RunsOn (β := Nat) .dev G0 none ['a'] (.consume 1) 2 .panic ∧
    RunsOn (β := Nat) .release G0 none ['a'] (.consume 1) 2 (.ok ⟨2, 1⟩ 3) ∧
    origSubM .release ['a'] 2 1 = .err .outOfBound :=
  ⟨⟨3, by decide⟩, ⟨3, by decide⟩, by decide⟩

/-- **`*_ltm` in a sequence.** The sequence of C04 that panics in a debug build succeeds in
a release build. -/
theorem C87_ltm_counterexample :
    let p : Pat Char Nat := .thn (.ltm .array [(.lit ['a', 'b', 'c'], none), (.lit ['a'], none)]) (.lit ['b'])
    RunsOn .dev G0 none ['a', 'b', 'c'] p 0 .panic ∧
    RunsOn .release G0 none ['a', 'b', 'c'] p 0 (.ok ⟨0, 2⟩ 2) :=
  ⟨⟨6, by decide⟩, ⟨6, by decide⟩⟩

/-- **`orig_sub`.** With a length near `usize::MAX`, the check for the bounds itself
overflows: a debug build panics instead of returning `OriginOutOfBound`. -/
theorem C87_orig_sub_counterexample :
    origSubM .dev ['a'] 1 (2 ^ 64 - 1) = .panic ∧ origSubM .release ['a'] 1 (2 ^ 64 - 1) = .err .outOfBound ∧
      origSub ['a'] 1 (2 ^ 64 - 1) = .err .outOfBound := by decide

end Neure
