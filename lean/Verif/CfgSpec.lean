import Verif.Peg
/-!
# The context-free reading of a grammar

What a user has in mind who reads `a.or(b)` as "an `a` or a `b`" and `a.repeat(0..)` as
"any number of `a`": a context-free grammar.  The library tries alternatives in order,
repeats as often as it can and does not come back, so the two readings differ in
general.  Nothing here refers to the evaluator.
-/

namespace Neure

/-- `Derives R e w`: the context-free grammar `R` derives the text `w` from `e`.
Alternatives are not ordered and repetition is not greedy; a lookahead derives the empty
text, except `not(empty)`, which never succeeds. -/
inductive Derives {ι : Type} (R : Nat → Peg ι) : Peg ι → List ι → Prop where
  | eps : Derives R .eps []
  | cls {f x} : f x = true → Derives R (.cls f) [x]
  | nt {i w} : Derives R (R i) w → Derives R (.nt i) w
  | seq {a b w v} : Derives R a w → Derives R b v → Derives R (.seq a b) (w ++ v)
  | left {a b w} : Derives R a w → Derives R (.alt a b) w
  | right {a b w} : Derives R b w → Derives R (.alt a b) w
  | stop {a} : Derives R (.star a) []
  | more {a w v} : Derives R a w → Derives R (.star a) v → Derives R (.star a) (w ++ v)
  | ahead {a} : a ≠ .eps → Derives R (.not a) []

/-- Some text of `e` begins with `x`. -/
def Starts {ι : Type} (R : Nat → Peg ι) (e : Peg ι) (x : ι) : Prop := ∃ w, Derives R e (x :: w)

/-- `e` derives the empty text. -/
def Nullable {ι : Type} (R : Nat → Peg ι) (e : Peg ι) : Prop := Derives R e []

/-- `e` has a result on every input (no left recursion, no repetition of the empty text). -/
def Halts {ι : Type} (R : Nat → Peg ι) (e : Peg ι) : Prop := ∀ x, ∃ r, Ford R e x r

/-- One item of lookahead decides (the grammar is LL(1)).  `F e h` says that `e` may be
followed by `h`: an item, or the end of the text (`none`).  Two alternatives never begin
with the same item, only the last one may be empty, and what may be empty or repeated
never begins with an item that may follow it. -/
structure Predictive {ι : Type} (R : Nat → Peg ι) (F : Peg ι → Option ι → Prop) : Prop where
  nt {i h} : F (.nt i) h → F (R i) h
  first {a b h x} : F (.seq a b) h → Starts R b x → F a (some x)
  first' {a b h} : F (.seq a b) h → Nullable R b → F a h
  second {a b h} : F (.seq a b) h → F b h
  left {a b h} : F (.alt a b) h → F a h
  right {a b h} : F (.alt a b) h → F b h
  decided {a b h} : F (.alt a b) h → Halts R a ∧ ¬ Nullable R a ∧ ∀ x, Starts R a x →
    ¬ Starts R b x ∧ (Nullable R b → h ≠ some x)
  round {a h x} : F (.star a) h → Starts R a x → F a (some x)
  last {a h} : F (.star a) h → F a h
  ends {a h} : F (.star a) h → Halts R a ∧ ¬ Nullable R a ∧ ∀ x, Starts R a x → h ≠ some x
  ahead {a h} : F (.not a) h → a ≠ .eps → ∀ y, y.head? = h → Ford R a y none

/-- The same expression up to the order and grouping of alternatives, anywhere inside. -/
inductive Reordered {ι : Type} : Peg ι → Peg ι → Prop where
  | refl {a} : Reordered a a
  | symm {a b} : Reordered a b → Reordered b a
  | trans {a b c} : Reordered a b → Reordered b c → Reordered a c
  | swap {a b} : Reordered (.alt a b) (.alt b a)
  | group {a b c} : Reordered (.alt (.alt a b) c) (.alt a (.alt b c))
  | alt {a a' b b'} : Reordered a a' → Reordered b b' → Reordered (.alt a b) (.alt a' b')
  | seq {a a' b b'} : Reordered a a' → Reordered b b' → Reordered (.seq a b) (.seq a' b')
  | star {a a'} : Reordered a a' → Reordered (.star a) (.star a')

/-! ## The tables of the textbook -/

/-- Read off the expression with a table for the nonterminals: may it be empty? -/
def Peg.nullable {ι : Type} (N : Nat → Bool) : Peg ι → Bool
  | .eps | .star _ | .not _ => true
  | .cls _ => false
  | .nt i => N i
  | .seq a b => a.nullable N && b.nullable N
  | .alt a b => a.nullable N || b.nullable N

/-- The same: may it begin with `x`? -/
def Peg.first {ι : Type} (N : Nat → Bool) (T : Nat → ι → Bool) : Peg ι → ι → Bool
  | .eps, _ | .not _, _ => false
  | .cls f, x => f x
  | .nt i, x => T i x
  | .seq a b, x => a.first N T x || (a.nullable N && b.first N T x)
  | .alt a b, x => a.first N T x || b.first N T x
  | .star a, x => a.first N T x

/-- No left recursion: the nonterminals that `e` may try before it has consumed anything have
a rank below `k`. -/
def Peg.leftBelow {ι : Type} (N : Nat → Bool) (rank : Nat → Nat) (k : Nat) : Peg ι → Prop
  | .eps | .cls _ => True
  | .nt i => rank i < k
  | .seq a b => a.leftBelow N rank k ∧ (a.nullable N = true → b.leftBelow N rank k)
  | .alt a b => a.leftBelow N rank k ∧ b.leftBelow N rank k
  | .star a | .not a => a.leftBelow N rank k

/-- What is repeated is never empty. -/
def Peg.loopsMove {ι : Type} (N : Nat → Bool) : Peg ι → Prop
  | .eps | .cls _ | .nt _ => True
  | .seq a b | .alt a b => a.loopsMove N ∧ b.loopsMove N
  | .star a => a.nullable N = false ∧ a.loopsMove N
  | .not a => a.loopsMove N

/-- No conflict in `e` when it is followed by `H`; `O` is the table of what may follow the
nonterminals. -/
def Peg.noConflict {ι : Type} (R : Nat → Peg ι) (N : Nat → Bool) (T : Nat → ι → Bool) (O : Nat → Option ι → Prop) :
    Peg ι → (Option ι → Prop) → Prop
  | .eps, _ | .cls _, _ => True
  | .nt i, H => ∀ h, H h → O i h
  | .seq a b, H => b.noConflict R N T O H ∧
      a.noConflict R N T O fun h => (∃ x, h = some x ∧ b.first N T x = true) ∨ (b.nullable N = true ∧ H h)
  | .alt a b, H => a.noConflict R N T O H ∧ b.noConflict R N T O H ∧ a.nullable N = false ∧
      ∀ x, a.first N T x = true → b.first N T x = false ∧ (b.nullable N = true → ¬ H (some x))
  | .star a, H => a.nullable N = false ∧ (∀ x, a.first N T x = true → ¬ H (some x)) ∧
      a.noConflict R N T O fun h => (∃ x, h = some x ∧ a.first N T x = true) ∨ H h
  | .not a, H => a = .eps ∨ ∀ y, H y.head? → Ford R a y none

/-- The tables `N`, `T`, `O` of empty, first and following are closed under the rules, `rank`
orders the nonterminals, and there is no conflict. -/
structure Tables {ι : Type} (R : Nat → Peg ι) (N : Nat → Bool) (T : Nat → ι → Bool) (O : Nat → Option ι → Prop)
    (rank : Nat → Nat) : Prop where
  nullable : ∀ i, (R i).nullable N = true → N i = true
  first : ∀ i x, (R i).first N T x = true → T i x = true
  loops : ∀ i, (R i).loopsMove N
  ranked : ∀ i, (R i).leftBelow N rank (rank i)
  follow : ∀ i, (R i).noConflict R N T O (O i)

end Neure
