import Verif.PegSkip
import Verif.CtorSpec
/-!
# Values of parsing expressions: an independent semantics of construction

A parsing expression grammar whose expressions have values (an attribute
grammar over `Peg.lean`), and the reading of a pattern as such an expression.
Nothing in `VPeg` and `Yields` refers to the evaluator, to offsets, spans,
handlers or fuel.
-/

namespace Neure

set_option linter.unusedSectionVars false

/-- Parsing expressions with values. -/
inductive VPeg (ι β : Type) where
  /-- skip `W`; the value is made of the text that `e` then matches -/
  | text (W e : Peg ι)
  | fail
  /-- the `i`-th nonterminal -/
  | nt (i : Nat)
  /-- one after the other, both values -/
  | pair (a b : VPeg ι β)
  /-- `e`, then `a`; only the value of `a` -/
  | after (e : Peg ι) (a : VPeg ι β)
  /-- `a`, then `e`; only the value of `a` -/
  | before (a : VPeg ι β) (e : Peg ι)
  /-- `a`; and if `t` follows, also `b` -/
  | cond (a : VPeg ι β) (t : Peg ι) (b : VPeg ι β)
  | alt (a b : VPeg ι β)
  /-- both are tried; the one that leaves less wins, in doubt the first -/
  | longest (a b : VPeg ι β)
  /-- choice by a test of the input to come -/
  | ite (c : List ι → Bool) (a b : VPeg ι β)
  | opt (a : VPeg ι β)
  /-- a function of the value; where it is undefined the expression fails -/
  | map (f : Val β → Option (Val β)) (a : VPeg ι β)
  /-- what follows depends on the value -/
  | bind (a : VPeg ι β) (k : Val β → VPeg ι β)
  /-- as many `a` as there are, at most `n`, as a list; if it is the failure of
  `a` that ends the list, `T` is consumed there -/
  | upto (a : VPeg ι β) (n : Option Nat) (T : Peg ι)
  /-- the same with at least `m` elements -/
  | many (a : VPeg ι β) (m : Nat) (n : Option Nat) (T : Peg ι)
  /-- elements separated by `s`; `keep` says whether an element without a
  separator behind it is kept; `T` is consumed where `a` fails, `Ts` where `s`
  fails -/
  | seps (a : VPeg ι β) (s : Peg ι) (keep : Bool) (T Ts : Peg ι)
  /-- the same with at least `m` elements -/
  | list (a : VPeg ι β) (s : Peg ι) (keep : Bool) (m : Nat) (T Ts : Peg ι)

/-- `Yields R V g E x r`: applied to the input `x`, `E` succeeds with value `v`
leaving `y` (`r = some (v, y)`) or fails (`r = none`).  `R` and `V` are the rules
for nonterminals; `g t y` is the value of a text `t` after which `y` remains. -/
inductive Yields {ι β : Type} (R : Nat → Peg ι) (V : Nat → VPeg ι β) (g : List ι → List ι → β) :
    VPeg ι β → List ι → Option (Val β × List ι) → Prop where
  | text_ok {W e x t y} : Ford R W x (some (t ++ y)) → Ford R e (t ++ y) (some y) →
      Yields R V g (.text W e) x (some (.base (g t y), y))
  | text_no {W e x} : Ford R (.seq W e) x none → Yields R V g (.text W e) x none
  | fail {x} : Yields R V g .fail x none
  | nt {i x r} : Yields R V g (V i) x r → Yields R V g (.nt i) x r
  | pair_ok {a b x y z v w} : Yields R V g a x (some (v, y)) → Yields R V g b y (some (w, z)) →
      Yields R V g (.pair a b) x (some (.pair v w, z))
  | pair_no1 {a b x} : Yields R V g a x none → Yields R V g (.pair a b) x none
  | pair_no2 {a b x y v} : Yields R V g a x (some (v, y)) → Yields R V g b y none →
      Yields R V g (.pair a b) x none
  | after_ok {e a x y r} : Ford R e x (some y) → Yields R V g a y r → Yields R V g (.after e a) x r
  | after_no {e a x} : Ford R e x none → Yields R V g (.after e a) x none
  | before_ok {a e x y z v} : Yields R V g a x (some (v, y)) → Ford R e y (some z) →
      Yields R V g (.before a e) x (some (v, z))
  | before_no1 {a e x} : Yields R V g a x none → Yields R V g (.before a e) x none
  | before_no2 {a e x y v} : Yields R V g a x (some (v, y)) → Ford R e y none →
      Yields R V g (.before a e) x none
  | cond_yes {a t b x y z u v w} : Yields R V g a x (some (v, y)) → Ford R t y (some z) →
      Yields R V g b z (some (w, u)) → Yields R V g (.cond a t b) x (some (.pair v (.some w), u))
  | cond_no {a t b x y v} : Yields R V g a x (some (v, y)) → Ford R t y none →
      Yields R V g (.cond a t b) x (some (.pair v .none, y))
  | cond_fail1 {a t b x} : Yields R V g a x none → Yields R V g (.cond a t b) x none
  | cond_fail2 {a t b x y z v} : Yields R V g a x (some (v, y)) → Ford R t y (some z) →
      Yields R V g b z none → Yields R V g (.cond a t b) x none
  | alt_1 {a b x v y} : Yields R V g a x (some (v, y)) → Yields R V g (.alt a b) x (some (v, y))
  | alt_2 {a b x r} : Yields R V g a x none → Yields R V g b x r → Yields R V g (.alt a b) x r
  | longest_l {a b x v y w z} : Yields R V g a x (some (v, y)) → Yields R V g b x (some (w, z)) →
      y.length ≤ z.length → Yields R V g (.longest a b) x (some (v, y))
  | longest_r {a b x v y w z} : Yields R V g a x (some (v, y)) → Yields R V g b x (some (w, z)) →
      z.length < y.length → Yields R V g (.longest a b) x (some (w, z))
  | longest_a {a b x v y} : Yields R V g a x (some (v, y)) → Yields R V g b x none →
      Yields R V g (.longest a b) x (some (v, y))
  | longest_b {a b x r} : Yields R V g a x none → Yields R V g b x r → Yields R V g (.longest a b) x r
  | ite {c a b x r} : Yields R V g (if c x then a else b) x r → Yields R V g (.ite c a b) x r
  | opt_some {a x v y} : Yields R V g a x (some (v, y)) → Yields R V g (.opt a) x (some (.some v, y))
  | opt_none {a x} : Yields R V g a x none → Yields R V g (.opt a) x (some (.none, x))
  | map_ok {f a x v w y} : Yields R V g a x (some (v, y)) → f v = some w →
      Yields R V g (.map f a) x (some (w, y))
  | map_no {f a x v y} : Yields R V g a x (some (v, y)) → f v = none → Yields R V g (.map f a) x none
  | map_fail {f a x} : Yields R V g a x none → Yields R V g (.map f a) x none
  | bind_ok {a k x y z v w} : Yields R V g a x (some (v, y)) → Yields R V g (k v) y (some (w, z)) →
      Yields R V g (.bind a k) x (some (.pair v w, z))
  | bind_no1 {a k x} : Yields R V g a x none → Yields R V g (.bind a k) x none
  | bind_no2 {a k x y v} : Yields R V g a x (some (v, y)) → Yields R V g (k v) y none →
      Yields R V g (.bind a k) x none
  | upto_full {a T x} : Yields R V g (.upto a (some 0) T) x (some (.nil, x))
  | upto_stop {a n T x y} : n ≠ some 0 → Yields R V g a x none → Ford R T x (some y) →
      Yields R V g (.upto a n T) x (some (.nil, y))
  | upto_more {a n T x y z v l} : n ≠ some 0 → Yields R V g a x (some (v, y)) →
      Yields R V g (.upto a (n.map (· - 1)) T) y (some (l, z)) →
      Yields R V g (.upto a n T) x (some (.cons v l, z))
  | many_ok {a m n T x vs y} : Yields R V g (.upto a n T) x (some (Val.list vs, y)) → m ≤ vs.length →
      Yields R V g (.many a m n T) x (some (Val.list vs, y))
  | many_no {a m n T x vs y} : Yields R V g (.upto a n T) x (some (Val.list vs, y)) → vs.length < m →
      Yields R V g (.many a m n T) x none
  | seps_stop {a s keep T Ts x y} : Yields R V g a x none → Ford R T x (some y) →
      Yields R V g (.seps a s keep T Ts) x (some (.nil, y))
  | seps_last {a s keep T Ts x v y z} : Yields R V g a x (some (v, y)) → Ford R s y none →
      Ford R Ts y (some z) →
      Yields R V g (.seps a s keep T Ts) x (some (if keep then .cons v .nil else .nil, z))
  | seps_more {a s keep T Ts x v y z l u} : Yields R V g a x (some (v, y)) → Ford R s y (some z) →
      Yields R V g (.seps a s keep T Ts) z (some (l, u)) →
      Yields R V g (.seps a s keep T Ts) x (some (.cons v l, u))
  | list_ok {a s keep m T Ts x vs y} : Yields R V g (.seps a s keep T Ts) x (some (Val.list vs, y)) →
      m ≤ vs.length → Yields R V g (.list a s keep m T Ts) x (some (Val.list vs, y))
  | list_no {a s keep m T Ts x vs y} : Yields R V g (.seps a s keep T Ts) x (some (Val.list vs, y)) →
      vs.length < m → Yields R V g (.list a s keep m T Ts) x none

variable {ι β σ : Type} [Item ι]

/-- How the patterns that are only matched read in a context: `text p e`, the
leaf `p` matches the text of `e`; `delim p e`, the delimiter (test, separator) `p`
stands for `e`; `skip` is what the context skips before each of them. -/
structure Reading (ι β : Type) where
  text : Pat ι β → Peg ι → Prop
  delim : Pat ι β → Peg ι → Prop
  skip : Peg ι

/-- A plain context: read everything as in C58. -/
def Reading.plain : Reading ι β := ⟨AsPeg, AsPeg, .eps⟩

/-- A context that skips `W`: leaves are primitive patterns, delimiters read as
in C62. -/
def Reading.skipping (W : Peg ι) : Reading ι β :=
  ⟨fun p e => Primitive p ∧ AsPeg p e, fun p e => ∃ e', AsPegIn W p e' ∧ e = .seq W e', W⟩

/-- `Tail X G p T`: where constructing `p` fails, the position is left behind
`T`.  Combinators come back to where they started; leaves leave behind what the
context skipped.  A mapper that fails leaves the position behind the text it was
given; this can be told for a mapper on a leaf. -/
inductive Tail (X : Reading ι β) (G : Rules ι β) : Pat ι β → Peg ι → Prop where
  | leaf {p} : IsLeaf p → Tail X G p (.opt X.skip)
  | guarded {p} : Guarded p → Tail X G p .eps
  | opt {p} : Tail X G (.opt p) .eps
  | dthen {p f} : Tail X G (.dthen p f) .eps
  | map {p f T} : (∀ v e, f v ≠ .err e) → Tail X G p T → Tail X G (.map p f) T
  | mapLeaf {p f e} : IsLeaf p → (∀ q, p ≠ .pat q) → X.text p e →
      Tail X G (.map p f) (.alt (.seq X.skip e) (.opt X.skip))
  | cell {i q T} : G i = some q → Tail X G q T → Tail X G (.cell i) T
  | cell_none {i} : G i = none → Tail X G (.cell i) .eps

/-- Which valued parsing expression a pattern stands for. -/
inductive AsVal (X : Reading ι β) (G : Rules ι β) : Pat ι β → VPeg ι β → Prop where
  | leaf {p e} : IsLeaf p → (∀ q, p ≠ .pat q) → X.text p e → AsVal X G p (.text X.skip e)
  | pat {p e} : X.text p e → AsVal X G (.pat p) (.text X.skip e)
  | cell (i) : AsVal X G (.cell i) (.nt i)
  | thn {a b A B} : AsVal X G a A → AsVal X G b B → AsVal X G (.thn a b) (.pair A B)
  | pre {s a e A} : X.delim s e → AsVal X G a A → AsVal X G (.pre s a) (.after e A)
  | suf {a s A e} : AsVal X G a A → X.delim s e → AsVal X G (.suf a s) (.before A e)
  | enclose {s a t es A et} : X.delim s es → AsVal X G a A → X.delim t et →
      AsVal X G (.enclose s a t) (.after es (.before A et))
  | sepOnce {a s b A e B} : AsVal X G a A → X.delim s e → AsVal X G b B →
      AsVal X G (.sepOnce a s b) (.pair A (.after e B))
  | ifThen {a t b A e B} : AsVal X G a A → X.delim t e → AsVal X G b B →
      AsVal X G (.ifThen a t b) (.cond A e B)
  | or {a b A B} : AsVal X G a A → AsVal X G b B → AsVal X G (.or a b) (.alt A B)
  | longest {a b A B} : AsVal X G a A → AsVal X G b B → AsVal X G (.longest a b) (.longest A B)
  | branch {test a b A B} (c) : (∀ pre x, test (pre ++ x) (blen pre) = .ok (c x)) →
      AsVal X G a A → AsVal X G b B → AsVal X G (.branch test a b) (.ite c A B)
  | opt {p E} : AsVal X G p E → AsVal X G (.opt p) (.opt E)
  | choice_nil (er) : AsVal X G (.choice er []) .fail
  | choice_cons (er) {p E items Es} : AsVal X G p E → AsVal X G (.choice er items) Es →
      AsVal X G (.choice er ((p, none) :: items)) (.alt E Es)
  | choice_pair (er) {p E k items Es} : AsVal X G p E → AsVal X G (.choice er items) Es →
      AsVal X G (.choice er ((p, some k) :: items)) (.alt (.map (fun v => some (.pair v k)) E) Es)
  | map {p E f} (f') : (∀ v, f v ≠ .panic) → (∀ v w, f v = .ok w ↔ f' v = some w) → AsVal X G p E →
      AsVal X G (.map p f) (.map f' E)
  | dthen {p E f} (q : Val β → Pat ι β) (k : Val β → VPeg ι β) : (∀ d o v, f d o v = .ok (q v) o) → AsVal X G p E →
      (∀ v, AsVal X G (q v) (k v)) → AsVal X G (.dthen p f) (.bind E k)
  | rep {p E T} (r m n) : AsVal X G p E → Tail X G p T → Counts r m n →
      AsVal X G (.rep p r) (.many E m n T)
  | collect {p E T} (m) : AsVal X G p E → Tail X G p T → AsVal X G (.collect p m) (.many E m none T)
  | sep {p E T s e} (keep m) : AsVal X G p E → Tail X G p T → X.delim s e →
      AsVal X G (.sep p s keep m) (.list E e keep m T (.opt X.skip))

/-- The recursive handles and the valued rules agree. -/
def RulesAsVal (X : Reading ι β) (G : Rules ι β) (V : Nat → VPeg ι β) : Prop :=
  ∀ i, (∃ q, G i = some q ∧ AsVal X G q (V i)) ∨ (G i = none ∧ V i = .fail)

/-- On the input `d` the handler turns a text `t`, with `y` behind it, into
`g t y` and keeps no state. -/
def Handles (H : Handler ι β σ) (d : List ι) (g : List ι → List ι → β) : Prop :=
  ∀ pre t y o st, d = pre ++ t ++ y → H d o ⟨blen pre, blen t⟩ st = (.ok (g t y), st)

end Neure
