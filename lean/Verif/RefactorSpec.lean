import Verif.Sub
/-!
# Specification: refactoring a grammar with named patterns

A pattern may be used directly or through a handle (`Rc<RefCell<Option<…>>>`,
`src/regex/rec.rs`).  The definitions below say, without reference to how
patterns run, when two grammars differ only in what is named and what is written
in place.
-/

namespace Neure

variable {ι β : Type}

/-- Two conditions of the same kind, with corresponding patterns. -/
inductive SameCond (R : Pat ι β → Pat ι β → Prop) : Cond ι β → Cond ι β → Prop where
  | empty : SameCond R .empty .empty
  | fn (f) : SameCond R (.fn f) (.fn f)
  | regex {p p'} : R p p' → SameCond R (.regex p) (.regex p')

/-- Two results of builder closures that correspond. -/
inductive SameBuilt (R : Pat ι β → Pat ι β → Prop) : Res (Pat ι β) → Res (Pat ι β) → Prop where
  | ok {p p'} (o : Nat) : R p p' → SameBuilt R (.ok p o) (.ok p' o)
  | err (e o) : SameBuilt R (.err e o) (.err e o)
  | panic : SameBuilt R .panic .panic

/-- Two lists of alternatives that correspond one by one, with the same values
attached. -/
inductive SameItems (R : Pat ι β → Pat ι β → Prop) :
    List (Pat ι β × Option (Val β)) → List (Pat ι β × Option (Val β)) → Prop where
  | nil : SameItems R [] []
  | cons {p p' l l'} (v : Option (Val β)) : R p p' → SameItems R l l' →
      SameItems R ((p, v) :: l) ((p', v) :: l')

/-- `SameShape G G' R p p'`: both patterns are made by the same combinator with
the same parameters, from components that `R` relates.  Handles correspond when
both are empty or when `R` relates their contents; the handles themselves need
not be the same. -/
inductive SameShape (G G' : Rules ι β) (R : Pat ι β → Pat ι β → Prop) :
    Pat ι β → Pat ι β → Prop where
  | empty : SameShape G G' R .empty .empty
  | fail : SameShape G G' R .fail .fail
  | start : SameShape G G' R .start .start
  | anchorEnd : SameShape G G' R .anchorEnd .anchorEnd
  | consume (n) : SameShape G G' R (.consume n) (.consume n)
  | consumeAll : SameShape G G' R .consumeAll .consumeAll
  | lit (l) : SameShape G G' R (.lit l) (.lit l)
  | native (f) : SameShape G G' R (.native f) (.native f)
  | once (u) {c c'} : SameCond R c c' → SameShape G G' R (.once u c) (.once u c')
  | many1 (u) {c c'} : SameCond R c c' → SameShape G G' R (.many1 u c) (.many1 u c')
  | optU (u) {c c'} : SameCond R c c' → SameShape G G' R (.optU u c) (.optU u c')
  | many0 (u) {c c'} : SameCond R c c' → SameShape G G' R (.many0 u c) (.many0 u c')
  | between (m n u) {c c'} : SameCond R c c' →
      SameShape G G' R (.between m n u c) (.between m n u c')
  | times (r u) {c c'} : SameCond R c c' → SameShape G G' R (.times r u c) (.times r u c')
  | thenU (u v) {c c'} : SameCond R c c' → SameShape G G' R (.thenU u v c) (.thenU u v c')
  | assert (v) {p p'} : R p p' → SameShape G G' R (.assert p v) (.assert p' v)
  | thn {a a' b b'} : R a a' → R b b' → SameShape G G' R (.thn a b) (.thn a' b')
  | ifThen {a a' t t' b b'} : R a a' → R t t' → R b b' →
      SameShape G G' R (.ifThen a t b) (.ifThen a' t' b')
  | pre {a a' b b'} : R a a' → R b b' → SameShape G G' R (.pre a b) (.pre a' b')
  | suf {a a' b b'} : R a a' → R b b' → SameShape G G' R (.suf a b) (.suf a' b')
  | enclose {a a' b b' c c'} : R a a' → R b b' → R c c' →
      SameShape G G' R (.enclose a b c) (.enclose a' b' c')
  | sepOnce {a a' b b' c c'} : R a a' → R b b' → R c c' →
      SameShape G G' R (.sepOnce a b c) (.sepOnce a' b' c')
  | or {a a' b b'} : R a a' → R b b' → SameShape G G' R (.or a b) (.or a' b')
  | longest {a a' b b'} : R a a' → R b b' → SameShape G G' R (.longest a b) (.longest a' b')
  | opt {p p'} : R p p' → SameShape G G' R (.opt p) (.opt p')
  | choice (e) {l l'} : SameItems R l l' → SameShape G G' R (.choice e l) (.choice e l')
  | ltm (e) {l l'} : SameItems R l l' → SameShape G G' R (.ltm e l) (.ltm e l')
  | rep (r) {p p'} : R p p' → SameShape G G' R (.rep p r) (.rep p' r)
  | rep2 (m n) {p p'} : R p p' → SameShape G G' R (.rep2 p m n) (.rep2 p' m n)
  | collect (m) {p p'} : R p p' → SameShape G G' R (.collect p m) (.collect p' m)
  | sep (k m) {p p' s s'} : R p p' → R s s' → SameShape G G' R (.sep p s k m) (.sep p' s' k m)
  | sep2 (k m n) {p p' s s'} : R p p' → R s s' →
      SameShape G G' R (.sep2 p s k m n) (.sep2 p' s' k m n)
  | sepCollect (k m) {p p' s s'} : R p p' → R s s' →
      SameShape G G' R (.sepCollect p s k m) (.sepCollect p' s' k m)
  | branch (t) {a a' b b'} : R a a' → R b b' → SameShape G G' R (.branch t a b) (.branch t a' b')
  | map (f) {p p'} : R p p' → SameShape G G' R (.map p f) (.map p' f)
  | pat {p p'} : R p p' → SameShape G G' R (.pat p) (.pat p')
  | build {p p' f f'} : R p p' → (∀ d o s, SameBuilt R (f d o s) (f' d o s)) →
      SameShape G G' R (.build p f) (.build p' f')
  | dthen {p p' f f'} : R p p' → (∀ d o v, SameBuilt R (f d o v) (f' d o v)) →
      SameShape G G' R (.dthen p f) (.dthen p' f')
  | unset {i j} : G i = none → G' j = none → SameShape G G' R (.cell i) (.cell j)
  | cell {i j q q'} : G i = some q → G' j = some q' → R q q' →
      SameShape G G' R (.cell i) (.cell j)

/-- `Opens G p q`: `q` is `p`, or what one finds by following the handle `p`, then
the handle found there, and so on, a finite number of times. -/
inductive Opens (G : Rules ι β) : Pat ι β → Pat ι β → Prop where
  | refl (p) : Opens G p p
  | step {i q r} : G i = some q → Opens G q r → Opens G (.cell i) r

/-- `R` is a refactoring from the grammar `G` to the grammar `G'`: once handles are
followed on either side, related patterns are made by the same combinator from
related components. -/
def Refactoring (G G' : Rules ι β) (R : Pat ι β → Pat ι β → Prop) : Prop :=
  ∀ p p', R p p' → ∃ q q', Opens G p q ∧ Opens G' p' q' ∧ SameShape G G' R q q'

/-- `p` under the rules `G` and `p'` under the rules `G'` differ only in what is
named and what is written in place. -/
def Refactored (G G' : Rules ι β) (p p' : Pat ι β) : Prop :=
  ∃ R, Refactoring G G' R ∧ R p p'

/-- The policies correspond: both contexts have none, or both skip, by refactored
patterns. -/
inductive SamePolicy (R : Pat ι β → Pat ι β → Prop) :
    Option (Pat ι β) → Option (Pat ι β) → Prop where
  | none : SamePolicy R none none
  | some {q q'} : R q q' → SamePolicy R (some q) (some q')

end Neure
