import Verif.MachineDebug
import Verif.MachineCalls
import Verif.PropsMachine
/-!
# C98: what a debug build computes, every build computes

C87 shows that the builds agree on texts a program can hold, at valid positions, for
patterns free of a few constructs.  Here nothing is assumed about text, position or
pattern: a build may differ from one with more checks only where the latter panics.
-/

namespace Neure

set_option linter.unusedSectionVars false
set_option linter.unusedSimpArgs false

open Demo Debug

variable {ι β σ : Type} [Item ι] {b b' : Build} {G : Rules ι β}

/-- `cargo build` makes all the checks. -/
theorem dev_stricter (b : Build) : Build.dev.Stricter b := ⟨fun _ => rfl, fun _ => rfl⟩

/-- Every build makes the checks of `cargo build --release`. -/
theorem stricter_release (b : Build) : b.Stricter .release :=
  ⟨fun h => by simp [Build.release] at h, fun h => by simp [Build.release] at h⟩

/-- **C98** Matching: if a build finishes without panic, every build with fewer checks
finishes with the same result. -/
theorem C98_same_result (hb : b.Stricter b') {pol : Option (Pat ι β)} {d : List ι} {p : Pat ι β}
    {o : Nat} {r : Res Span} (h : RunsOn b G pol d p o r) (hr : r ≠ .panic) :
    RunsOn b' G pol d p o r := by
  obtain ⟨n, hn⟩ := h
  rcases tryMatM_Q (G := G) hb n pol d p o with h | h
  · rw [h] at hn; exact absurd (Option.some.inj hn).symm hr
  · exact ⟨n, by rw [← h]; exact hn⟩

/-- **C98** Conversely, what a build returns is what a build with more checks returns,
unless that one panics (in particular it does not run for ever). -/
theorem C98_or_panic (hb : b.Stricter b') {pol : Option (Pat ι β)} {d : List ι} {p : Pat ι β}
    {o : Nat} {r : Res Span} (h : RunsOn b' G pol d p o r) :
    RunsOn b G pol d p o r ∨ RunsOn b G pol d p o .panic := by
  obtain ⟨n, hn⟩ := h
  rcases tryMatM_Q (G := G) hb n pol d p o with h | h
  · exact .inr ⟨n, h⟩
  · exact .inl ⟨n, by rw [h]; exact hn⟩

/-- **C98** So a program tested with `cargo build` and seen not to panic on an input
behaves the same on that input in every build. -/
theorem C98_tested (b : Build) {pol : Option (Pat ι β)} {d : List ι} {p : Pat ι β} {o : Nat}
    (h : ¬ RunsOn .dev G pol d p o .panic) (r : Res Span) :
    RunsOn b G pol d p o r ↔ RunsOn .dev G pol d p o r := by
  constructor
  · intro hr
    exact (C98_or_panic (dev_stricter b) hr).resolve_right h
  · intro hr
    exact C98_same_result (dev_stricter b) hr fun he => h (he ▸ hr)

/-- Far outside the text, where C87 says nothing: the debug build answers, and so does
every build. -/
example (b : Build) : RunsOn b G0 none ['a'] (.consumeAll : Pat Char Nat) 7 (.ok ⟨7, 0⟩ 7) :=
  C98_same_result (dev_stricter b) ⟨3, by decide⟩ (by simp)

/-- The other direction: this release run has to be the debug run, since the debug build
does not panic there. -/
example (b : Build) (r : Res Span) (h : RunsOn b G0 none ['a', 'b']
    (.sep2 (.lit ['a']) (.lit [',']) true 1 3 : Pat Char Nat) 0 r) : r = .ok ⟨0, 1⟩ 1 := by
  have hd : RunsOn .dev G0 none ['a', 'b'] (.sep2 (.lit ['a']) (.lit [',']) true 1 3 : Pat Char Nat) 0
      (.ok ⟨0, 1⟩ 1) := ⟨4, by decide⟩
  exact RunsOn.unique ((C98_tested b (fun hp => by cases RunsOn.unique hd hp) r).mp h) hd

/-- **C98** Building values, with a handler that itself panics or agrees. -/
theorem C98_construct {H H' : Handler ι β σ}
    (hH : ∀ d o s st, (H d o s st).1 = .panic ∨ H d o s st = H' d o s st)
    (hb : b.Stricter b') {pol : Option (Pat ι β)} {d : List ι} {p : Pat ι β} {st : σ} {o : Nat}
    {r : CRes σ (Val β)} :
    (ConstructsOn b G H pol d p st o r → r ≠ .panic → ConstructsOn b' G H' pol d p st o r) ∧
    (ConstructsOn b' G H' pol d p st o r →
      ConstructsOn b G H pol d p st o r ∨ ConstructsOn b G H pol d p st o .panic) := by
  constructor
  · rintro ⟨n, hn⟩ hr
    rcases conM_Q (G := G) hb hH n pol d p st o with h | h
    · rw [h] at hn; exact absurd (Option.some.inj hn).symm hr
    · exact ⟨n, by rw [← h]; exact hn⟩
  · rintro ⟨n, hn⟩
    rcases conM_Q (G := G) hb hH n pol d p st o with h | h
    · exact .inr ⟨n, h⟩
    · exact .inl ⟨n, by rw [h]; exact hn⟩

/-- **C98** `ctx.ctor::<_, &str>(p)` (or `&[u8]`), whose handler slices the text. -/
theorem C98_ctor {G : Rules ι (List ι)} (hb : b.Stricter b') {pol : Option (Pat ι (List ι))} {d : List ι}
    {p : Pat ι (List ι)} {st : σ} {o : Nat} {r : CRes σ (Val (List ι))} :
    (ConstructsOn b G (extractM b) pol d p st o r → r ≠ .panic →
      ConstructsOn b' G (extractM b') pol d p st o r) ∧
    (ConstructsOn b' G (extractM b') pol d p st o r →
      ConstructsOn b G (extractM b) pol d p st o r ∨ ConstructsOn b G (extractM b) pol d p st o .panic) :=
  C98_construct (extract_Q hb) hb

example (b : Build) : ConstructsOn b (fun _ => none) (extractM b) none ['a', 'b', 'c']
    (.rep (.once (.always) .empty) ⟨.incl 1, .excl 3⟩ : Pat Char (List Char)) () 0
    (.ok (.list [.base ['a'], .base ['b']]) () 2) :=
  C98_ctor (dev_stricter b) |>.1 ⟨5, by rfl⟩ (by simp)

/-! ## Any sequence of calls -/

section

variable (hb : b.Stricter b')
include hb

theorem findM_Q {mt mt' : Nat → Option (Res Span)} (h : ∀ o, Q (mt o) (mt' o)) (d : List ι) :
    ∀ n o, Q (findM b mt d n o) (findM b' mt' d n o)
  | 0, _ => Q.refl _
  | n + 1, o => by
    rw [findM, findM]
    have hn : ∀ o', Q (opK (b.add o' 1) fun o2 => findM b mt d n o2)
        (opK (b'.add o' 1) fun o2 => findM b' mt' d n o2) :=
      fun _ => opK_Q (add_N hb _ _) fun o2 => findM_Q h d n o2
    refine ite_Q (caseR_Q (h _) (fun s o' => ite_Q ?_ (hn _)) (fun _ o' => hn _)) (Q.refl _)
    rcases origSub_Q hb d s.beg s.len with he | he
    · have he := Option.some.inj he
      left; rw [he]; rfl
    · have he := Option.some.inj he
      rw [he]
      cases origSubM b' d s.beg s.len with
      | ok a => exact Q.refl _
      | err e => exact findM_Q h d n _
      | panic => exact Q.refl _

omit hb in
theorem answerO_Q {α : Type} {o : Nat} {f : α → CtxAnswer ι} {x y : Out α} (h : Q (some x) (some y)) :
    Q (answerO o f x) (answerO o f y) := by
  rcases h with h | h
  · have h := Option.some.inj h
    left; rw [h]; rfl
  · have h := Option.some.inj h
    rw [h]; exact Q.refl _

omit hb in
theorem answerR_Q {α : Type} {f : α → CtxAnswer ι} {x y : Option (Res α)} (h : Q x y) :
    Q (answerR f x) (answerR f y) :=
  caseR_Q h (fun _ _ => Q.refl _) (fun _ _ => Q.refl _)

theorem callM_Q (pol : Option (Pat ι β)) (d : List ι) (n : Nat) (c : CtxCall ι β) (o : Nat) :
    Q (callM b G pol d n c o) (callM b' G pol d n c o) := by
  have r {γ : Type} [Bad γ] (x : Option γ) : Q x x := Q.refl x
  cases c with
  | setOffset o' => exact r _
  | inc k => exact opK_Q (add_N hb _ _) fun _ => r _
  | dec k => exact opK_Q (sub_N hb _ _) fun _ => r _
  | origSub _ _ => exact answerO_Q (origSub_Q hb _ _ _)
  | origAt _ => exact answerO_Q (origAt_Q hb _ _)
  | peek => exact answerO_Q (peek_Q hb _ _)
  | tryMat p => exact answerR_Q (tryMatM_Q hb _ _ _ _ _)
  | isMat p => exact caseR_Q (tryMatM_Q hb _ _ _ _ _) (fun _ _ => r _) (fun _ _ => r _)
  | tryAssert p => exact caseR_Q (tryMatM_Q hb _ _ _ _ _) (fun _ _ => r _) (fun _ _ => r _)
  | policy p before after =>
    exact answerR_Q (caseR_Q (parseM_Q hb _ _ _ _ _) (fun _ _ => caseR_Q (parseM_Q hb _ _ _ _ _)
      (fun _ _ => caseR_Q (parseM_Q hb _ _ _ _ _) (fun _ _ => r _) (fun _ _ => r _)) (fun _ _ => r _))
      (fun _ _ => r _))
  | find p => exact answerR_Q (findM_Q hb (fun o => tryMatM_Q hb _ _ _ _ o) d n o)

theorem sessionM_Q (pol : Option (Pat ι β)) (d : List ι) (n : Nat) :
    ∀ (cs : List (CtxCall ι β)) (o : Nat), Q (sessionM b G pol d n cs o) (sessionM b' G pol d n cs o)
  | [], _ => Q.refl _
  | c :: cs, o => caseR_Q (callM_Q hb pol d n c o) (fun _ _ => caseR_Q (sessionM_Q pol d n cs _)
      (fun _ _ => Q.refl _) (fun _ _ => Q.refl _)) (fun _ _ => Q.refl _)

end

/-- **C98** The same for every sequence of calls on a context (moving it, reading its text,
matching, searching): all the answers and the final position of a build are those of a
build with fewer checks, unless the former panics. -/
theorem C98_session (hb : b.Stricter b') {pol : Option (Pat ι β)} {d : List ι} {cs : List (CtxCall ι β)}
    {o : Nat} {r : Res (List (CtxAnswer ι))} :
    (SessionOn b G pol d cs o r → r ≠ .panic → SessionOn b' G pol d cs o r) ∧
    (SessionOn b' G pol d cs o r →
      SessionOn b G pol d cs o r ∨ SessionOn b G pol d cs o .panic) := by
  constructor
  · rintro ⟨n, hn⟩ hr
    rcases sessionM_Q (G := G) hb pol d n cs o with h | h
    · rw [h] at hn; exact absurd (Option.some.inj hn).symm hr
    · exact ⟨n, by rw [← h]; exact hn⟩
  · rintro ⟨n, hn⟩
    rcases sessionM_Q (G := G) hb pol d n cs o with h | h
    · exact .inr ⟨n, h⟩
    · exact .inl ⟨n, by rw [h]; exact hn⟩

example (b : Build) : SessionOn b G0 none ['a', 'b', 'a']
    ([.inc 2, .dec 1, .find (.lit ['a']), .peek, .setOffset 9, .isMat (.consumeAll)] : List (CtxCall Char Nat)) 0
    (.ok [.unit, .unit, .found (some ['a']), .items [], .unit, .bool true] 9) :=
  (C98_session (dev_stricter b)).1 ⟨5, by rfl⟩ (by simp)

/-- **C98** Where the debug build panics, a release build goes on with another position:
`dec(1)` at the start. -/
theorem C98_dec_counterexample :
    SessionOn .dev G0 none ['a'] ([.dec 1, .tryMat .consumeAll] : List (CtxCall Char Nat)) 0 .panic ∧
    SessionOn .release G0 none ['a'] ([.dec 1, .tryMat .consumeAll] : List (CtxCall Char Nat)) 0
      (.ok [.unit, .span ⟨2 ^ 64 - 1, 0⟩] (2 ^ 64 - 1)) := by
  refine ⟨⟨2, by simp [sessionM, callM, opK, caseR, Build.sub, Build.dev]⟩, ⟨2, ?_⟩⟩
  have h1 : Build.release.sub 0 1 = some (2 ^ 64 - 1) := by decide
  have h2 : Build.release.add (2 ^ 64 - 1) 0 = some (2 ^ 64 - 1) := by decide
  have h3 : blen ['a'] - (2 ^ 64 - 1) = 0 := by decide
  simp only [sessionM, callM, opK, caseR, answerR, tryMatM, matWith, parseM, stepM, spanIncM, h1, h2, h3]

/-- **C98** `inc(n)` then `dec(n)` is back where it started in every build, unless the
first panics: without checks both wrap around. -/
theorem C98_inc_dec (b : Build) (pol : Option (Pat ι β)) (d : List ι) {o n : Nat} (ho : o < 2 ^ 64)
    (hn : n < 2 ^ 64) :
    SessionOn b G pol d [.inc n, .dec n] o (.ok [.unit, .unit] o) ∨
    (SessionOn b G pol d [.inc n, .dec n] o .panic ∧ b.overflowChecks = true ∧ 2 ^ 64 ≤ o + n) := by
  by_cases h : o + n < wordSize
  · left
    refine ⟨0, ?_⟩
    simp [sessionM, callM, opK, caseR, Build.add, Build.sub, h]
  · cases hc : b.overflowChecks with
    | true =>
      right
      refine ⟨⟨0, ?_⟩, rfl, by simpa [wordSize] using h⟩
      simp [sessionM, callM, opK, caseR, Build.add, h, hc]
    | false =>
      left
      refine ⟨0, ?_⟩
      have h1 : (o + n) % wordSize = o + n - wordSize := by
        simp only [wordSize] at h ⊢; omega
      have h2 : ¬ n ≤ o + n - wordSize := by simp only [wordSize] at h ⊢; omega
      have h3 : (o + n - wordSize + wordSize - n) % wordSize = o := by
        simp only [wordSize] at h ⊢; omega
      simp [sessionM, callM, opK, caseR, Build.add, Build.sub, h, hc, h1, h2, h3]

example : SessionOn .release G0 none [] ([.inc (2 ^ 64 - 1), .dec (2 ^ 64 - 1)] : List (CtxCall Char Nat)) 3
    (.ok [.unit, .unit] 3) := by
  rcases C98_inc_dec (ι := Char) (β := Nat) (G := G0) .release none [] (o := 3) (n := 2 ^ 64 - 1) (by decide) (by decide) with h | ⟨_, h, _⟩
  · exact h
  · simp [Build.release] at h

end Neure
