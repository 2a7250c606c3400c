import Verif.Ctor
/-!
# Specification: the same grammar with other values

A pattern of the crate is generic in what its handler makes of a span and in what
its mappers make of those values: `O`, `M`, the tags of the choice tables.  The
definitions below say, without reference to how patterns run, when two grammars are
the same except for the values they build, given a correspondence `ρ` between the
values of the one and of the other.
-/

namespace Neure

variable {ι β β' σ σ' : Type}

/-- Two built values of the same structure (tuples, `Option`s, `Vec`s), whose leaves
correspond. -/
inductive RVal (ρ : β → β' → Prop) : Val β → Val β' → Prop where
  | base {b b'} : ρ b b' → RVal ρ (.base b) (.base b')
  | pair {a a' b b'} : RVal ρ a a' → RVal ρ b b' → RVal ρ (.pair a b) (.pair a' b')
  | none : RVal ρ .none .none
  | some {a a'} : RVal ρ a a' → RVal ρ (.some a) (.some a')
  | nil : RVal ρ .nil .nil
  | cons {a a' l l'} : RVal ρ a a' → RVal ρ l l' → RVal ρ (.cons a l) (.cons a' l')

/-- Two results of user code that correspond: both succeed with corresponding values,
both fail with the same error, or both panic. -/
inductive ROut {α α' : Type} (r : α → α' → Prop) : Out α → Out α' → Prop where
  | ok {a a'} : r a a' → ROut r (.ok a) (.ok a')
  | err (e) : ROut r (.err e) (.err e)
  | panic : ROut r .panic .panic

/-- Two optional values: both absent, or both present and corresponding. -/
inductive ROpt {α α' : Type} (r : α → α' → Prop) : Option α → Option α' → Prop where
  | none : ROpt r none none
  | some {a a'} : r a a' → ROpt r (some a) (some a')

/-- Two outcomes of building that correspond: the same kind of outcome, the same
position, the same error, corresponding values and handlers left in corresponding
states. -/
inductive RRes {α α' : Type} (τ : σ → σ' → Prop) (r : α → α' → Prop) :
    CRes σ α → CRes σ' α' → Prop where
  | ok {a a' st st'} (o : Nat) : r a a' → τ st st' → RRes τ r (.ok a st o) (.ok a' st' o)
  | err {st st'} (e : Error) (o : Nat) : τ st st' → RRes τ r (.err e st o) (.err e st' o)
  | panic : RRes τ r .panic .panic

/-- Two conditions of the same kind, with corresponding patterns. -/
inductive AlikeCond (R : Pat ι β → Pat ι β' → Prop) : Cond ι β → Cond ι β' → Prop where
  | empty : AlikeCond R .empty .empty
  | fn (f) : AlikeCond R (.fn f) (.fn f)
  | regex {p p'} : R p p' → AlikeCond R (.regex p) (.regex p')

/-- Two results of builder closures that correspond. -/
inductive AlikeBuilt (R : Pat ι β → Pat ι β' → Prop) :
    Res (Pat ι β) → Res (Pat ι β') → Prop where
  | ok {p p'} (o : Nat) : R p p' → AlikeBuilt R (.ok p o) (.ok p' o)
  | err (e o) : AlikeBuilt R (.err e o) (.err e o)
  | panic : AlikeBuilt R .panic .panic

/-- Two lists of alternatives that correspond one by one, with corresponding values
attached. -/
inductive AlikeItems (ρ : β → β' → Prop) (R : Pat ι β → Pat ι β' → Prop) :
    List (Pat ι β × Option (Val β)) → List (Pat ι β' × Option (Val β')) → Prop where
  | nil : AlikeItems ρ R [] []
  | cons {p p' v v' l l'} : R p p' → ROpt (RVal ρ) v v' → AlikeItems ρ R l l' →
      AlikeItems ρ R ((p, v) :: l) ((p', v') :: l')

/-- `Alike ρ G G' R p p'`: both patterns are made by the same combinator with the same
parameters, from components that `R` relates; mappers send corresponding values to
corresponding results, dynamic builders send corresponding values to related
patterns, and the tags of a choice table correspond. -/
inductive Alike (ρ : β → β' → Prop) (G : Rules ι β) (G' : Rules ι β')
    (R : Pat ι β → Pat ι β' → Prop) : Pat ι β → Pat ι β' → Prop where
  | empty : Alike ρ G G' R .empty .empty
  | fail : Alike ρ G G' R .fail .fail
  | start : Alike ρ G G' R .start .start
  | anchorEnd : Alike ρ G G' R .anchorEnd .anchorEnd
  | consume (n) : Alike ρ G G' R (.consume n) (.consume n)
  | consumeAll : Alike ρ G G' R .consumeAll .consumeAll
  | lit (l) : Alike ρ G G' R (.lit l) (.lit l)
  | native (f) : Alike ρ G G' R (.native f) (.native f)
  | once (u) {c c'} : AlikeCond R c c' → Alike ρ G G' R (.once u c) (.once u c')
  | many1 (u) {c c'} : AlikeCond R c c' → Alike ρ G G' R (.many1 u c) (.many1 u c')
  | optU (u) {c c'} : AlikeCond R c c' → Alike ρ G G' R (.optU u c) (.optU u c')
  | many0 (u) {c c'} : AlikeCond R c c' → Alike ρ G G' R (.many0 u c) (.many0 u c')
  | between (m n u) {c c'} : AlikeCond R c c' →
      Alike ρ G G' R (.between m n u c) (.between m n u c')
  | times (r u) {c c'} : AlikeCond R c c' → Alike ρ G G' R (.times r u c) (.times r u c')
  | thenU (u v) {c c'} : AlikeCond R c c' → Alike ρ G G' R (.thenU u v c) (.thenU u v c')
  | assert (v) {p p'} : R p p' → Alike ρ G G' R (.assert p v) (.assert p' v)
  | thn {a a' b b'} : R a a' → R b b' → Alike ρ G G' R (.thn a b) (.thn a' b')
  | ifThen {a a' t t' b b'} : R a a' → R t t' → R b b' →
      Alike ρ G G' R (.ifThen a t b) (.ifThen a' t' b')
  | pre {a a' b b'} : R a a' → R b b' → Alike ρ G G' R (.pre a b) (.pre a' b')
  | suf {a a' b b'} : R a a' → R b b' → Alike ρ G G' R (.suf a b) (.suf a' b')
  | enclose {a a' b b' c c'} : R a a' → R b b' → R c c' →
      Alike ρ G G' R (.enclose a b c) (.enclose a' b' c')
  | sepOnce {a a' b b' c c'} : R a a' → R b b' → R c c' →
      Alike ρ G G' R (.sepOnce a b c) (.sepOnce a' b' c')
  | or {a a' b b'} : R a a' → R b b' → Alike ρ G G' R (.or a b) (.or a' b')
  | longest {a a' b b'} : R a a' → R b b' → Alike ρ G G' R (.longest a b) (.longest a' b')
  | opt {p p'} : R p p' → Alike ρ G G' R (.opt p) (.opt p')
  | choice (e) {l l'} : AlikeItems ρ R l l' → Alike ρ G G' R (.choice e l) (.choice e l')
  | ltm (e) {l l'} : AlikeItems ρ R l l' → Alike ρ G G' R (.ltm e l) (.ltm e l')
  | rep (r) {p p'} : R p p' → Alike ρ G G' R (.rep p r) (.rep p' r)
  | rep2 (m n) {p p'} : R p p' → Alike ρ G G' R (.rep2 p m n) (.rep2 p' m n)
  | collect (m) {p p'} : R p p' → Alike ρ G G' R (.collect p m) (.collect p' m)
  | sep (k m) {p p' s s'} : R p p' → R s s' → Alike ρ G G' R (.sep p s k m) (.sep p' s' k m)
  | sep2 (k m n) {p p' s s'} : R p p' → R s s' →
      Alike ρ G G' R (.sep2 p s k m n) (.sep2 p' s' k m n)
  | sepCollect (k m) {p p' s s'} : R p p' → R s s' →
      Alike ρ G G' R (.sepCollect p s k m) (.sepCollect p' s' k m)
  | branch (t) {a a' b b'} : R a a' → R b b' → Alike ρ G G' R (.branch t a b) (.branch t a' b')
  | map {p p' f f'} : R p p' → (∀ v v', RVal ρ v v' → ROut (RVal ρ) (f v) (f' v')) →
      Alike ρ G G' R (.map p f) (.map p' f')
  | pat {p p'} : R p p' → Alike ρ G G' R (.pat p) (.pat p')
  | build {p p' f f'} : R p p' → (∀ d o s, AlikeBuilt R (f d o s) (f' d o s)) →
      Alike ρ G G' R (.build p f) (.build p' f')
  | dthen {p p' f f'} : R p p' → (∀ d o v v', RVal ρ v v' → AlikeBuilt R (f d o v) (f' d o v')) →
      Alike ρ G G' R (.dthen p f) (.dthen p' f')
  | unset {i j} : G i = none → G' j = none → Alike ρ G G' R (.cell i) (.cell j)
  | cell {i j q q'} : G i = some q → G' j = some q' → R q q' →
      Alike ρ G G' R (.cell i) (.cell j)

/-- `R` makes the grammar `G` and the grammar `G'` the same except for the values:
related patterns are made by the same combinator from related components. -/
def Parallel (ρ : β → β' → Prop) (G : Rules ι β) (G' : Rules ι β')
    (R : Pat ι β → Pat ι β' → Prop) : Prop :=
  ∀ p p', R p p' → Alike ρ G G' R p p'

/-- `Grow ρ G G' S`: the patterns `S` relates, and everything made by the same
combinators from them. -/
inductive Grow (ρ : β → β' → Prop) (G : Rules ι β) (G' : Rules ι β')
    (S : Pat ι β → Pat ι β' → Prop) : Pat ι β → Pat ι β' → Prop where
  | base {p p'} : S p p' → Grow ρ G G' S p p'
  | step {p p'} : Alike ρ G G' (Grow ρ G G' S) p p' → Grow ρ G G' S p p'

/-- The outermost combinator is not a mapper, not a dynamic builder of values, and not a
choice table with tags. -/
def Bare : Pat ι β → Prop
  | .map _ _ | .dthen _ _ => False
  | .choice _ items | .ltm _ items => ∀ it ∈ items, it.2 = none
  | _ => True

/-- The built value with every leaf converted by `h`. -/
def Val.conv (h : β → β') : Val β → Val β'
  | .base b => .base (h b)
  | .pair a b => .pair (a.conv h) (b.conv h)
  | .none => .none
  | .some a => .some (a.conv h)
  | .nil => .nil
  | .cons a l => .cons (a.conv h) (l.conv h)

/-- The result of user code with its value converted by `h`. -/
def Out.conv (h : β → β') : Out β → Out β'
  | .ok b => .ok (h b)
  | .err e => .err e
  | .panic => .panic

/-- Handlers that correspond on the text `d`: from corresponding states, at every place
and for every span, they produce corresponding results and go to corresponding states. -/
def RHandler (τ : σ → σ' → Prop) (ρ : β → β' → Prop) (d : List ι) (H : Handler ι β σ)
    (H' : Handler ι β' σ') : Prop :=
  ∀ o s st st', τ st st' →
    ROut ρ (H d o s st).1 (H' d o s st').1 ∧ τ (H d o s st).2 (H' d o s st').2

end Neure
