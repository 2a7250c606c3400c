import Verif.Syntax
/-!
# Sub-patterns

`Child G q p`: `q` is an immediate component of pattern `p` (a sub-pattern, the
pattern of a condition, a pattern a builder closure may return, or the content
of a recursive cell).  `All G P p`: `P` holds of `p` and of everything reachable
from it.  Used to state "for every pattern built without …".
-/

namespace Neure

variable {ι β : Type}

/-- The pattern inside a condition. -/
def Cond.Has (q : Pat ι β) : Cond ι β → Prop
  | .regex p => q = p
  | _ => False

/-- Immediate components. -/
def Child (G : Rules ι β) (q : Pat ι β) : Pat ι β → Prop
  | .once _ c | .many1 _ c | .optU _ c | .many0 _ c | .between _ _ _ c | .times _ _ c
  | .thenU _ _ c => c.Has q
  | .assert p _ | .opt p | .rep p _ | .rep2 p _ _ | .collect p _ | .map p _ | .pat p => q = p
  | .thn a b | .pre a b | .suf a b | .or a b | .longest a b | .branch _ a b => q = a ∨ q = b
  | .ifThen a b c | .enclose a b c | .sepOnce a b c => q = a ∨ q = b ∨ q = c
  | .sep a b _ _ | .sep2 a b _ _ _ | .sepCollect a b _ _ => q = a ∨ q = b
  | .choice _ items | .ltm _ items => ∃ it ∈ items, q = it.1
  | .build p f => q = p ∨ ∃ d o s o', f d o s = .ok q o'
  | .dthen p f => q = p ∨ ∃ d o v o', f d o v = .ok q o'
  | .cell i => G i = some q
  | _ => False

/-- `Desc G p q`: `q` is reachable from `p` (reflexive-transitive closure of
`Child`). -/
inductive Desc (G : Rules ι β) (p : Pat ι β) : Pat ι β → Prop where
  | refl : Desc G p p
  | step {q r} : Desc G p q → Child G r q → Desc G p r

/-- `P` holds of `p` and all patterns reachable from it. -/
def All (G : Rules ι β) (P : Pat ι β → Prop) (p : Pat ι β) : Prop := ∀ q, Desc G p q → P q

theorem All.self {G : Rules ι β} {P : Pat ι β → Prop} {p : Pat ι β} (h : All G P p) : P p :=
  h p .refl

theorem Desc.trans {G : Rules ι β} {p q r : Pat ι β} (h' : Desc G p q) (h : Desc G q r) :
    Desc G p r := by
  induction h with
  | refl => exact h'
  | step _ hc ih => exact .step ih hc

theorem All.child {G : Rules ι β} {P : Pat ι β → Prop} {p q : Pat ι β} (h : All G P p)
    (hc : Child G q p) : All G P q :=
  fun r hr => h r ((Desc.step .refl hc).trans hr)

/-- `All` by showing the property for the pattern and `All` for its children. -/
theorem All.intro {G : Rules ι β} {P : Pat ι β → Prop} {p : Pat ι β} (h : P p)
    (hc : ∀ q, Child G q p → All G P q) : All G P p := by
  intro q hq
  have key : q = p ∨ ∃ c, Child G c p ∧ Desc G c q := by
    induction hq with
    | refl => exact .inl rfl
    | step hd hch ih =>
      rcases ih with rfl | ⟨c, h1, h2⟩
      · exact .inr ⟨_, hch, .refl⟩
      · exact .inr ⟨c, h1, .step h2 hch⟩
  rcases key with rfl | ⟨c, h1, h2⟩
  · exact h
  · exact hc c h1 q h2

theorem All.mono {G : Rules ι β} {P Q : Pat ι β → Prop} {p : Pat ι β} (h : All G P p)
    (hPQ : ∀ q, P q → Q q) : All G Q p := fun q hq => hPQ q (h q hq)

/-- `All` from a set of patterns containing `p`, closed under `Child`, all of
which satisfy `P` (needed for recursive grammars). -/
theorem All.coind {G : Rules ι β} {P : Pat ι β → Prop} {p : Pat ι β} (S : Pat ι β → Prop)
    (hp : S p) (hS : ∀ q, S q → P q) (hcl : ∀ q r, S q → Child G r q → S r) : All G P p := by
  intro q hq
  apply hS
  induction hq with
  | refl => exact hp
  | step _ hc ih => exact hcl _ _ ih hc

end Neure
