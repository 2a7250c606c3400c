import Verif.LogLemmas
import Verif.PropsMachineDebug
/-!
# C99: turning logging on changes no result

`ConstructsLogging` (`Log.lean`) is `construct` in a build with feature `log` or `tracing`
and messages switched on; `ConstructsOn` (`Machine.lean`) is the same build without.
-/

namespace Neure

set_option linter.unusedSectionVars false
set_option linter.unusedSimpArgs false

open Demo Debug Log

variable {ι β σ : Type} [Item ι] {b : Build} {G : Rules ι β}

/-- **C99** In a build without overflow checks nothing changes, whatever the closures do. -/
theorem C99_release (hb : b.overflowChecks = false) {H : Handler ι β σ} {pol : Option (Pat ι β)} {d : List ι}
    {p : Pat ι β} {st : σ} {o : Nat} {r : CRes σ (Val β)} :
    ConstructsLogging b G H pol d p st o r ↔ ConstructsOn b G H pol d p st o r := by
  unfold ConstructsLogging ConstructsOn
  simp only [conLog_off hb]

/-- **C99** In a build with overflow checks nothing changes either (values, errors, handler
state, position, panics, termination), when the closures given to the library and the
policy leave the context where they found it or further on. -/
theorem C99_checked (hb : b.overflowChecks = true) {H : Handler ι β σ} {pol : Option (Pat ι β)}
    (hpol : ∀ q, pol = some q → All G Onward q) {d : List ι}
    {p : Pat ι β} (hp : All G Onward p) {st : σ} {o : Nat} {r : CRes σ (Val β)} :
    ConstructsLogging b G H pol d p st o r ↔ ConstructsOn b G H pol d p st o r := by
  constructor
  · rintro ⟨n, hn⟩; exact ⟨n, by rw [← (e_con hb n pol hpol d p hp st o).1]; exact hn⟩
  · rintro ⟨n, hn⟩; exact ⟨n, by rw [(e_con hb n pol hpol d p hp st o).1]; exact hn⟩

/-- **C99** So in every build, for such patterns. -/
theorem C99_logging {H : Handler ι β σ} {pol : Option (Pat ι β)}
    (hpol : ∀ q, pol = some q → All G Onward q) {d : List ι}
    {p : Pat ι β} (hp : All G Onward p) {st : σ} {o : Nat} {r : CRes σ (Val β)} :
    ConstructsLogging b G H pol d p st o r ↔ ConstructsOn b G H pol d p st o r := by
  cases hb : b.overflowChecks
  · exact C99_release hb
  · exact C99_checked hb hpol hp

/-- **C99** For all patterns and closures: with messages the build panics, or does what it
does without. -/
theorem C99_or_panic {H : Handler ι β σ} {pol : Option (Pat ι β)} {d : List ι}
    {p : Pat ι β} {st : σ} {o : Nat} {r : CRes σ (Val β)} :
    (ConstructsLogging b G H pol d p st o r → r ≠ .panic → ConstructsOn b G H pol d p st o r) ∧
    (ConstructsOn b G H pol d p st o r →
      ConstructsLogging b G H pol d p st o r ∨ ConstructsLogging b G H pol d p st o .panic) := by
  constructor
  · rintro ⟨n, hn⟩ hr
    rcases conLog_Q (b := b) (G := G) (H := H) n pol d p st o with h | h
    · rw [h] at hn; exact absurd (Option.some.inj hn).symm hr
    · exact ⟨n, by rw [← h]; exact hn⟩
  · rintro ⟨n, hn⟩
    rcases conLog_Q (b := b) (G := G) (H := H) n pol d p st o with h | h
    · exact .inr ⟨n, h⟩
    · exact .inl ⟨n, by rw [h]; exact hn⟩

/-- A list of letters in brackets, with spaces skipped by the policy; the closure in it
steps over the letter it saw. -/
def logPat : Pat Char (List Char) :=
  .enclose (.lit ['[']) (.sep (.native fun d o => if d[o]? = some 'x' then .ok ⟨o, 1⟩ (o + 1)
    else .err .option o) (.lit [',']) true 1) (.lit [']'])

def logPolicy : Option (Pat Char (List Char)) := some (.many0 (.item ' ') .empty)

theorem logPat_onward : All (fun _ => none) Onward logPat := by
  refine .intro trivial fun q hq => ?_
  rcases hq with rfl | rfl | rfl
  · exact .intro trivial fun _ h => h.elim
  · refine .intro trivial fun q hq => ?_
    rcases hq with rfl | rfl
    · refine .intro (fun d o => ?_) fun _ h => h.elim
      by_cases h : d[o]? = some 'x' <;> simp [h] <;> omega
    · exact .intro trivial fun _ h => h.elim
  · exact .intro trivial fun _ h => h.elim

theorem logPolicy_onward (q : Pat Char (List Char)) (h : logPolicy = some q) :
    All (fun _ => none) Onward q := by
  cases h
  exact .intro trivial fun q hq => by cases hq

example (b : Build) : ConstructsLogging b (fun _ => none) (extractM b) logPolicy
    ['[', 'x', ' ', ',', 'x', ']'] logPat () 0
    (.ok (.list [.base ['x'], .base ['x']]) () 6) :=
  (C99_logging logPolicy_onward logPat_onward).2 (C98_ctor (dev_stricter b) |>.1 ⟨7, by rfl⟩ (by simp))

/-- **C99** The condition on closures is needed: one that steps back, inside an optional
part, is fine in a debug build until logging is turned on; then the message's length
underflows and the parser panics. -/
theorem C99_backwards_counterexample :
    ConstructsOn .dev (fun _ => none) (extractM .dev) none ['a', 'b']
      (.opt (.native fun _ o => .ok ⟨o, 0⟩ (o - 1)) : Pat Char (List Char)) () 1
      (.ok (.some (.base [])) () 0) ∧
    ConstructsLogging .dev (fun _ => none) (extractM .dev) none ['a', 'b']
      (.opt (.native fun _ o => .ok ⟨o, 0⟩ (o - 1)) : Pat Char (List Char)) () 1 .panic :=
  ⟨⟨3, by rfl⟩, ⟨3, by rfl⟩⟩

end Neure
