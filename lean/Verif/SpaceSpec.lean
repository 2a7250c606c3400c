import Verif.Attr
import Verif.CfgSpec
/-!
# Texts that differ in their spacing only

What a user has in mind who writes the same with more or less white space.  Nothing here
refers to the evaluator.
-/

namespace Neure

/-- The same items in the same order, apart from blanks (`b`).  Where one text has
blanks the other has some too, except in front, at the end, and between two items that
may stand together or apart (`A`).  The first argument is the item in front. -/
inductive Spaced {ι : Type} (b : ι → Bool) (A : ι → ι → Prop) : Option ι → List ι → List ι → Prop where
  | tail {p u u'} : (∀ c ∈ u, b c = true) → (∀ c ∈ u', b c = true) → Spaced b A p u u'
  | next {p c u u' x x'} : (∀ c ∈ u, b c = true) → (∀ c ∈ u', b c = true) → b c = false →
      ((u = [] ↔ u' = []) ∨ p = none ∨ ∃ a, p = some a ∧ A a c) →
      Spaced b A (some c) x x' → Spaced b A p (u ++ c :: x) (u' ++ c :: x')

/-- `x` and `y` differ in their spacing only. -/
def Respaced {ι : Type} (b : ι → Bool) (A : ι → ι → Prop) (x y : List ι) : Prop := Spaced b A none x y

/-- The items that a text of `e` may end with (read off the expression). -/
def Peg.last {ι : Type} : Peg ι → ι → Bool
  | .eps, _ | .not _, _ | .nt _, _ => false
  | .cls f, x => f x
  | .seq a b, x => b.last x || (b.nullable (fun _ => false) && a.last x)
  | .alt a b, x => a.last x || b.last x
  | .star a, x => a.last x

/-- The items that a text of `e` may begin with; for expressions without nonterminals. -/
def Peg.begins {ι : Type} (e : Peg ι) (x : ι) : Bool := e.first (fun _ => false) (fun _ _ => false) x

/-- `e` is a token: it contains no blanks, and no two items that may stand apart follow
each other in it. -/
def Peg.Token {ι : Type} (b : ι → Bool) (A : ι → ι → Prop) : Peg ι → Prop
  | .eps => True
  | .cls f => ∀ c, b c = true → f c = false
  | .nt _ | .not _ => False
  | .seq x y => x.Token b A ∧ y.Token b A ∧ ∀ c d, A c d → x.last c = true → y.begins d = false
  | .alt x y => x.Token b A ∧ y.Token b A
  | .star x => x.Token b A ∧ ∀ c d, A c d → x.last c = true → x.begins d = false

/-- A token, or the end of the text, or what never matches. -/
def Peg.Lexeme {ι : Type} (b : ι → Bool) (A : ι → ι → Prop) (e : Peg ι) : Prop :=
  e.Token b A ∨ e = .not .any ∨ e = .fail

/-- `Laid W L true e`: `e` is from `L`, or made of such with `W` in front of each of
them; `Laid W L false e`: also in front of the first. -/
inductive Laid {ι : Type} (W : Peg ι) (L : Peg ι → Prop) : Bool → Peg ι → Prop where
  | token {e} : L e → Laid W L true e
  | nt (i) : Laid W L true (.nt i)
  | behind {e} : Laid W L false e → Laid W L true e
  | skip {e} : Laid W L true e → Laid W L false (.seq W e)
  | skipped : Laid W L false W
  | eps : Laid W L false .eps
  | seq {x y} : Laid W L false x → Laid W L false y → Laid W L false (.seq x y)
  | alt {x y} : Laid W L false x → Laid W L false y → Laid W L false (.alt x y)
  | star {x} : Laid W L false x → Laid W L false (.star x)
  | not {x} : Laid W L false x → Laid W L false (.not x)

/-- The same for expressions with values. -/
inductive VLaid {ι β : Type} (W : Peg ι) (L : Peg ι → Prop) : VPeg ι β → Prop where
  | text {e} : L e → VLaid W L (.text W e)
  | fail : VLaid W L .fail
  | nt (i) : VLaid W L (.nt i)
  | pair {a b} : VLaid W L a → VLaid W L b → VLaid W L (.pair a b)
  | after {e a} : Laid W L false e → VLaid W L a → VLaid W L (.after e a)
  | before {a e} : VLaid W L a → Laid W L false e → VLaid W L (.before a e)
  | cond {a t b} : VLaid W L a → Laid W L false t → VLaid W L b → VLaid W L (.cond a t b)
  | alt {a b} : VLaid W L a → VLaid W L b → VLaid W L (.alt a b)
  | opt {a} : VLaid W L a → VLaid W L (.opt a)
  | map {f a} : VLaid W L a → VLaid W L (.map f a)
  | bind {a k} : VLaid W L a → (∀ v, VLaid W L (k v)) → VLaid W L (.bind a k)
  | upto {a n T} : VLaid W L a → Laid W L false T → VLaid W L (.upto a n T)
  | many {a m n T} : VLaid W L a → Laid W L false T → VLaid W L (.many a m n T)
  | seps {a s keep T Ts} : VLaid W L a → Laid W L false s → Laid W L false T → Laid W L false Ts →
      VLaid W L (.seps a s keep T Ts)
  | list {a s keep m T Ts} : VLaid W L a → Laid W L false s → Laid W L false T → Laid W L false Ts →
      VLaid W L (.list a s keep m T Ts)

end Neure
