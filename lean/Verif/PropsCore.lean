import Verif.CoreInv
import Verif.Demo
/-!
# C01–C05: position, span, boundaries, panics

`Runs G pol d p o r` reads: on a context with data `d`, offset `o` (and skip
policy `pol`, `none` for a plain `RegexCtx`), `ctx.try_mat(&p)` returns; the
result and the offset it leaves are given by `r`.
-/

namespace Neure

open Demo

variable {ι β : Type} [Item ι]

/-! ## C01 -/

/-- **C01.** On a plain context a failing `try_mat` leaves the offset where it
was, for every pattern in which user closures used as patterns restore the
offset and builder closures do not fail. -/
theorem C01_failed_match_restores_offset (G : Rules ι β) (d : List ι) (p : Pat ι β)
    (h : All G Restores p) (o : Nat) (e : Error) (o' : Nat)
    (hr : Runs G none d p o (.err e o')) : o' = o := by
  obtain ⟨n, hn⟩ := hr
  exact keeps_inv G n d p o h _ hn

/-- Hypotheses are met by a recursive grammar; the failing run is real: `"(("`
is read up to its end before the failure. -/
example : All GP Restores parens ∧ Runs GP none ['(', '('] parens 0 (.err .literal 0) :=
  ⟨all_parens trivial trivial trivial trivial trivial, 10, by decide⟩

/-- Without the condition the claim is false: a builder whose closure fails
leaves the offset after the first pattern (`src/regex/builder.rs:44-58`). -/
theorem C01_builder_counterexample :
    Runs (β := Nat) G0 none ['a', 'b'] (.build (.lit ['a']) fun _ o _ => .err .fail o) 0
      (.err .fail 1) := ⟨5, by decide⟩

/-! ## C02 -/

/-- **C02.** On a plain context the span of a successful `try_mat` starts at the
old offset and ends at the new one (patterns without `*_ltm`, without separated
lists with `skip = false`, without dynamic builders). -/
theorem C02_span_and_offset_agree (G : Rules ι β) (d : List ι) (p : Pat ι β)
    (h : All G Tidy p) (o : Nat) (s : Span) (o' : Nat)
    (hr : Runs G none d p o (.ok s o')) : s.beg = o ∧ s.beg + s.len = o' := by
  obtain ⟨n, hn⟩ := hr
  have := exact_inv G n d p o h _ hn
  exact ⟨this.1, this.2.symm⟩

example : All GP Tidy parens ∧
    Runs GP none ['(', '(', ')', '(', ')', ')', 'x'] parens 0 (.ok ⟨0, 6⟩ 6) :=
  ⟨all_parens trivial trivial trivial trivial trivial, 20, by decide⟩

/-- `array_ltm`/`vec_ltm`/`slice_ltm`: the span is right but the offset is where
the last attempt stopped (`src/regex.rs:800-826`). -/
theorem C02_ltm_counterexample :
    Runs (β := Nat) G0 none ['a', 'b', 'c'] (.ltm .array [(.lit ['a', 'b', 'c'], none), (.lit ['a'], none)])
      0 (.ok ⟨0, 3⟩ 1) := ⟨5, by decide⟩

/-- `sep` with `skip(false)`: the last element is not part of the span but its
input is consumed (`src/ctor/sep.rs:549-562`). -/
theorem C02_sep_skip_counterexample :
    Runs (β := Nat) G0 none ['a', ',', 'a'] (.sep (.lit ['a']) (.lit [',']) false 0) 0
      (.ok ⟨0, 2⟩ 3) := ⟨9, by decide⟩

/-- Dynamic builders return only the second span (`src/regex/builder.rs:44-58`). -/
theorem C02_builder_counterexample :
    Runs (β := Nat) G0 none ['a', 'b'] (.build (.lit ['a']) fun _ o _ => .ok (.lit ['b']) o) 0
      (.ok ⟨1, 1⟩ 2) := ⟨5, rfl⟩

/-! ## C03 -/

/-- **C03.** From a character boundary, whatever `try_mat` does (plain or policy
context), the new offset is again a boundary, and the span of a success can be
sliced out of the input (`orig_sub`, so `Extract` succeeds). -/
theorem C03_spans_are_valid_slices (G : Rules ι β) (pol : Option (Pat ι β)) (hpol : BoundPol G pol)
    (d : List ι) (p : Pat ι β) (h : All G (Bounded G pol) p) (o : Nat) (ho : Valid d o) :
    (∀ s o', Runs G pol d p o (.ok s o') →
      Valid d o' ∧ ∃ sub, origSub d s.beg s.len = .ok sub ∧ blen sub = s.len) ∧
    (∀ e o', Runs G pol d p o (.err e o') → Valid d o') := by
  have key : ∀ r, Runs G pol d p o r → OnBound d r := by
    rintro r ⟨n, hn⟩
    exact bound_mat (fun q hq o ho => bound_inv G n none (fun _ h => by cases h) d q o ho (hpol q hq))
      (fun o ho => bound_inv G n pol hpol d p o ho h) ho r hn
  refine ⟨fun s o' hr => ?_, fun e o' hr => key _ hr⟩
  obtain ⟨h1, h2, h3⟩ := key _ hr
  exact ⟨h3, origSub_of_valid h1 h2⟩

/-- A two-byte character is consumed whole; hypotheses hold. -/
example : All (G0 : Rules Char Nat) (Bounded G0 none) (.lit ['é']) ∧ Valid ['é', 'x'] 2 ∧
    Runs (β := Nat) G0 none ['é', 'x'] (.lit ['é']) 0 (.ok ⟨0, 2⟩ 2) :=
  ⟨all_lit trivial, ⟨['é'], ['x'], rfl, rfl⟩, 3, by decide⟩

/-- On `str`, `consume(1)` can stop in the middle of a character
(`src/regex/consume.rs:76-87`); the span is then not sliceable. -/
theorem C03_consume_counterexample :
    Runs (β := Nat) G0 none ['é'] (.consume 1) 0 (.ok ⟨0, 1⟩ 1) ∧ ¬ Valid ['é'] 1 ∧
      origSub ['é'] 0 1 = .err .outOfBound := by
  refine ⟨⟨3, by decide⟩, ?_, by decide⟩
  rw [valid_iff_dropB]
  have : dropB ['é'] 1 = none := by decide
  simp [this]

/-! ## C04 -/

/-- **C04.** From an in-bounds offset no `try_mat` panics, on plain and policy
contexts, for every pattern without `*_ltm` and `dthen` (which has no matching
mode), with `longest` only on plain contexts over tidy alternatives. -/
theorem C04_no_panic (G : Rules ι β) (pol : Option (Pat ι β)) (hpol : SafePol G pol)
    (d : List ι) (p : Pat ι β) (h : All G (Safe G pol) p) (o : Nat) (ho : o ≤ blen d) :
    ¬ Runs G pol d p o .panic := by
  rintro ⟨n, hn⟩
  exact fwd_mat (fun q hq o ho => safe_inv G n none (fun _ h => by cases h) d q o ho (hpol q hq))
    (fun o ho => safe_inv G n pol hpol d p o ho h) ho .panic hn

example : All GP (Safe GP none) parens ∧ SafePol GP none ∧ (0 : Nat) ≤ blen ['(', ')'] :=
  ⟨all_parens trivial trivial trivial trivial trivial, fun _ h => by simp at h, by decide⟩

example : All GP (Safe GP (some spaces)) parens ∧ SafePol GP (some spaces) :=
  ⟨all_parens trivial trivial trivial trivial trivial,
   fun q h => by cases h; exact all_spaces trivial⟩

/-- Past the end of the input the length computation underflows
(`src/ctx.rs:74-76`, `src/neu/once.rs:188`), for bytes and for strings. -/
theorem C04_past_end_counterexample :
    Runs (β := Nat) G0 none [(97 : UInt8)] (.once .always .empty) 2 .panic ∧
    Runs (β := Nat) G0 none ['a'] (.many0 .always .empty) 2 .panic :=
  ⟨⟨3, by decide⟩, ⟨3, by decide⟩⟩

/-- An `*_ltm` choice followed by anything can underflow when the spans are
merged, even at offset 0: `ltm(["abc", "a"]).then("b")` on `"abc"`. -/
theorem C04_ltm_counterexample :
    Runs (β := Nat) G0 none ['a', 'b', 'c']
      (.thn (.ltm .array [(.lit ['a', 'b', 'c'], none), (.lit ['a'], none)]) (.lit ['b'])) 0 .panic :=
  ⟨6, by decide⟩

/-! ## C05 -/

/-- **C05.** The offset never decreases and never exceeds the length, on
success and on failure; the span of a success lies between the old and the new
offset.  Any policy. -/
theorem C05_forward_and_in_bounds (G : Rules ι β) (pol : Option (Pat ι β)) (hpol : SafePol G pol)
    (d : List ι) (p : Pat ι β) (h : All G (Safe G pol) p) (o : Nat) (ho : o ≤ blen d) :
    (∀ s o', Runs G pol d p o (.ok s o') →
      o ≤ s.beg ∧ s.beg + s.len ≤ o' ∧ o' ≤ blen d) ∧
    (∀ e o', Runs G pol d p o (.err e o') → o ≤ o' ∧ o' ≤ blen d) := by
  have key : ∀ r, Runs G pol d p o r → Fwd d o r := by
    rintro r ⟨n, hn⟩
    exact fwd_mat (fun q hq o ho => safe_inv G n none (fun _ h => by cases h) d q o ho (hpol q hq))
      (fun o ho => safe_inv G n pol hpol d p o ho h) ho r hn
  exact ⟨fun s o' hr => key _ hr, fun e o' hr => key _ hr⟩

/-- **C05, end of the span.** Under any policy the span ends at the new offset,
for patterns without `longest`, `*_ltm` and loops. -/
theorem C05_span_ends_at_offset (G : Rules ι β) (pol : Option (Pat ι β)) (d : List ι) (p : Pat ι β)
    (h : All G Ends p) (o : Nat) (s : Span) (o' : Nat) (hr : Runs G pol d p o (.ok s o')) :
    s.beg + s.len = o' := by
  obtain ⟨n, hn⟩ := hr
  exact (end_mat (fun o => ends_inv G n pol d p o h) o _ hn).symm

/-- Under a skip policy the span begins later than the old offset. -/
example : All (G0 : Rules Char Nat) Ends (.thn (.lit ['a']) (.lit ['b'])) ∧
    Runs (β := Nat) G0 (some spaces) [' ', 'a', ' ', 'b'] (.thn (.lit ['a']) (.lit ['b'])) 0
      (.ok ⟨1, 3⟩ 4) := by
  refine ⟨All.intro trivial fun q hc => ?_, 9, by decide⟩
  rcases hc with rfl | rfl <;> exact all_lit trivial

/-- With a loop the skipping done by the failing last iteration stays: span
`0..1`, offset 2 (`src/ctor/repeat.rs:254-261`, `src/ctx/policy.rs:154-160`). -/
theorem C05_loop_counterexample :
    Runs (β := Nat) G0 (some spaces) ['a', ' ', 'b'] (.rep (.lit ['a']) ⟨.unb, .unb⟩) 0
      (.ok ⟨0, 1⟩ 2) := ⟨9, by decide⟩

end Neure
