import Verif.PropsMachine
import Verif.PropsBenchJson
/-!
# C87 for the JSON example: the same tree in every build
-/

namespace Neure

set_option linter.unusedSectionVars false
set_option linter.unusedVariables false

/-- A local condition that holds of everything in the rules, handles apart. -/
theorem All.rules {ι β : Type} [Item ι] {G : Rules ι β} {P : Pat ι β → Prop}
    (hG : ∀ i q, G i = some q → All (fun _ => none) P q) (p : Pat ι β) (hp : All (fun _ => none) P p) :
    All G P p := by
  refine All.coind (fun q => All (fun _ => none) P q) hp (fun q hq => hq.self) fun q r hq hc => ?_
  cases q with
  | cell i => exact hG i r hc
  | _ => exact hq.child hc

theorem pair_fits {β : Type} : FitsWord (escapePair 92 jEscape : Pat UInt8 β) := by
  show Neu.minLength (.item 92) + jEscape.minLength < 2 ^ 64
  decide

/-- Goes through a pattern. -/
macro "fits" : tactic => `(tactic| repeat' (
  refine All.mk (P := FitsWord) (by first | exact trivial | exact pair_fits | decide) fun q hq => ?_
  first
  | exact False.elim hq
  | (rcases (hq : _ = _ ∨ _ = _ ∨ _ = _) with hq | hq | hq <;> subst hq)
  | (rcases (hq : _ = _ ∨ _ = _) with hq | hq <;> subst hq)
  | (replace hq : _ = _ := hq; subst hq)
  | exact nomatch hq))

section Json
variable {ν : Type}

/-- `jsonH` in build `b`: the slice is taken with `usize` arithmetic. -/
def jsonHM (b : Build) : Handler UInt8 (JVal ν) Unit := fun d _ s st =>
  match origSubM b d s.beg s.len with
  | .ok l => (.ok (.slice l), st)
  | .err e => (.err e, st)
  | .panic => (.panic, st)

theorem jsonH_same (b : Build) : HandlerSame (jsonH (ν := ν)) (jsonHM b) := by
  intro d o s st hd hs
  have := wordSize_eq
  have := isizeMax_eq
  simp only [jsonH, jsonHM]
  rw [origSubM_eq (by omega)]
  rfl

/-- `JsonParser::parse` of `examples/json.rs`, compiled with the options `b`, returns `r`. -/
def JsonParseOn (b : Build) (cv : JConv ν) (d : List UInt8) (r : CRes Unit (Val (JVal ν))) : Prop :=
  ConstructsOn b (jsonRules cv) (jsonHM b) none d (.cell 0) () 0 r

theorem json_fits (cv : JConv ν) : All (jsonRules cv) FitsWord (.cell 0) := by
  refine All.rules (fun i q h => ?_) _ (by fits)
  cases i with
  | succ i => cases h
  | zero => cases h; fits

/-- **C87 (the JSON example).** The parser returns the same tree, or the same error, in a
debug and in a release build, on every input of fewer than `2^63` bytes; it panics in
neither. -/
theorem C87_json (cv : JConv ν) {d : List UInt8} (hd : d.length ≤ isizeMax) (b : Build)
    (r : CRes Unit (Val (JVal ν))) : (JsonParseOn b cv d r ↔ JsonParse cv d r) ∧
      ¬ JsonParseOn b cv d .panic := by
  have hd' : blen d ≤ isizeMax := by rw [blen_bytes]; exact hd
  obtain ⟨r0, h0, hr0⟩ : ∃ r0, JsonParse cv d r0 ∧ r0 ≠ .panic := by
    rcases C49_returns cv d with ⟨v, o', h⟩ | ⟨e, o', h⟩
    · exact ⟨_, h, fun h => by cases h⟩
    · exact ⟨_, h, fun h => by cases h⟩
  have key := fun r' => (C87_construct_stateless (fun _ h => by cases h) (jsonH_same b) hd' (json_fits cv)
    (Nat.zero_le _) h0 b).1 hr0 r'
  refine ⟨(key r).trans ⟨fun h => h ▸ h0, fun h => Constructs.unique h h0⟩, fun h => ?_⟩
  exact hr0 ((key _).1 h).symm

/-- A document. -/
example (b : Build) (post : List UInt8) (h : post.length ≤ 1000) :
    JsonParseOn (ν := List UInt8) b (.zero (.ok ·)) ([91, 32, 49, 44, 93] ++ post)
      (.ok (.base (.json (.arr [.num [49]]))) () 5) := by
  have := isizeMax_eq
  refine ((C87_json _ (by simp only [List.length_append, List.length_cons, List.length_nil]; omega) b _).1).2
    ((C49_accepts_exactly _ _ _ _).2 ⟨_, post, _, rfl, rfl, ?_, rfl⟩)
  have := Reads.lastComma (cv := .zero fun l => .ok l) (w := [32]) (w' := []) (by simp [WsText])
    (Reads.num (t := [49]) ⟨[], [49], [], rfl, .inl rfl, ⟨by simp, by decide⟩, .inl rfl⟩ rfl) (by simp [WsText])
  exact .array this

end Json

end Neure
