import Verif.CtorTerm
/-!
# What a handler is told, and what becomes of its answers (C89): the specification

A value built by `construct` consists of answers of the handler, put together by the
combinators.  `Val.leaves` (`CtorSpec.lean`) lists the answers in a value from left to
right.  Here: the handler that keeps a protocol, the condition on mappers and tags under
which a value is made of nothing but answers, and what it means that answers stand in the
order of the text.
-/

namespace Neure

variable {ι β σ : Type} [Item ι]

/-- The handler `H` keeping a protocol: every span it is called with, together with the
answer if there is one, is appended to a list.  Nothing in `/repo`: a way to speak about
the calls a handler (`src/ctor.rs:112-130`) gets. -/
def recording (H : Handler ι β σ) : Handler ι β (σ × List (Span × Option β)) := fun d o s st =>
  match H d o s st.1 with
  | (.ok b, st') => (.ok b, st', st.2 ++ [(s, some b)])
  | (.err e, st') => (.err e, st', st.2 ++ [(s, none)])
  | (.panic, st') => (.panic, st', st.2)

/-- The answers in a protocol. -/
def answersIn (l : List (Span × Option β)) : List β := l.filterMap (·.2)

/-- The local condition that no combinator makes up answers: mappers rearrange nothing and
only leave answers out (`_0`, `_1`, `_eq`, …), the values attached to alternatives contain
none.  `far` says whether the longest-alternative containers may occur. -/
def Faithful (far : Prop) : Pat ι β → Prop
  | .map _ f => ∀ v w, f v = .ok w → w.leaves.Sublist v.leaves
  | .choice _ items => ∀ it ∈ items, ∀ k, it.2 = some k → k.leaves = []
  | .ltm _ items => far ∧ ∀ it ∈ items, ∀ k, it.2 = some k → k.leaves = []
  | _ => True

/-- `Ordered Made o l o'`: the answers `l` were made from spans that lie one after the other,
without overlapping, between the positions `o` and `o'`; `Made s b` says that `b` is an
answer for the span `s`. -/
inductive Ordered (Made : Span → β → Prop) : Nat → List β → Nat → Prop where
  | nil {o o' : Nat} : o ≤ o' → Ordered Made o [] o'
  | cons {o o' : Nat} {s : Span} {b : β} {l : List β} : o ≤ s.beg → Made s b →
      Ordered Made (s.beg + s.len) l o' → Ordered Made o (b :: l) o'

/-- `Scattered d o ls o'`: the texts `ls` occur in `d` one after the other between the
positions `o` and `o'`, with arbitrary text before, between and behind them. -/
inductive Scattered (d : List ι) : Nat → List (List ι) → Nat → Prop where
  | nil {o o' : Nat} : o ≤ o' → Scattered d o [] o'
  | cons {o b e o' : Nat} {l : List ι} {ls : List (List ι)} : o ≤ b → TextBetween d b l e →
      Scattered d e ls o' → Scattered d o (l :: ls) o'

end Neure
