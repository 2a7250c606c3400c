import Verif.Attr
import Verif.CfgSpec
import Verif.PropsSkip
/-!
# The value of a text according to a grammar

What a user has in mind who reads a grammar with values as a translation scheme: a text
that the (context-free) grammar derives has the value that is put together along its
derivation.  Alternatives are not ordered, repetitions are not greedy.  Nothing here
refers to the evaluator.
-/

namespace Neure

/-- `Means R V g E w y v`: the text `w`, with `y` behind it, has a derivation from `E` whose
value is `v`.  (`y` is only seen by `g`, which makes the values of the texts, and by the
tests of `ite`.) -/
inductive Means {ι β : Type} (R : Nat → Peg ι) (V : Nat → VPeg ι β) (g : List ι → List ι → β) :
    VPeg ι β → List ι → List ι → Val β → Prop where
  | text {W e u t y} : Derives R W u → Derives R e t → Means R V g (.text W e) (u ++ t) y (.base (g t y))
  | nt {i w y v} : Means R V g (V i) w y v → Means R V g (.nt i) w y v
  | pair {a b w u y v v'} : Means R V g a w (u ++ y) v → Means R V g b u y v' →
      Means R V g (.pair a b) (w ++ u) y (.pair v v')
  | after {e a u w y v} : Derives R e u → Means R V g a w y v → Means R V g (.after e a) (u ++ w) y v
  | before {a e w u y v} : Means R V g a w (u ++ y) v → Derives R e u → Means R V g (.before a e) (w ++ u) y v
  | yes {a t b w u z y v v'} : Means R V g a w (u ++ z ++ y) v → Derives R t u → Means R V g b z y v' →
      Means R V g (.cond a t b) (w ++ (u ++ z)) y (.pair v (.some v'))
  | no {a t b w y v} : Means R V g a w y v → Means R V g (.cond a t b) w y (.pair v .none)
  | left {a b w y v} : Means R V g a w y v → Means R V g (.alt a b) w y v
  | right {a b w y v} : Means R V g b w y v → Means R V g (.alt a b) w y v
  | long_left {a b w y v} : Means R V g a w y v → Means R V g (.longest a b) w y v
  | long_right {a b w y v} : Means R V g b w y v → Means R V g (.longest a b) w y v
  | ite {c a b w y v} : Means R V g (if c (w ++ y) then a else b) w y v → Means R V g (.ite c a b) w y v
  | one {a w y v} : Means R V g a w y v → Means R V g (.opt a) w y (.some v)
  | zero {a y} : Means R V g (.opt a) [] y .none
  | map {f a w y v v'} : Means R V g a w y v → f v = some v' → Means R V g (.map f a) w y v'
  | bind {a k w u y v v'} : Means R V g a w (u ++ y) v → Means R V g (k v) u y v' →
      Means R V g (.bind a k) (w ++ u) y (.pair v v')
  | many_stop {a n T y} : Means R V g (.many a 0 n T) [] y .nil
  | many_more {a m n T w u y v l} : n ≠ some 0 → Means R V g a w (u ++ y) v →
      Means R V g (.many a (m - 1) (n.map (· - 1)) T) u y l →
      Means R V g (.many a m n T) (w ++ u) y (.cons v l)
  | list_stop {a s keep T Ts y} : Means R V g (.list a s keep 0 T Ts) [] y .nil
  | list_last {a s keep m T Ts w y v} : m ≤ (if keep then 1 else 0) → Means R V g a w y v →
      Means R V g (.list a s keep m T Ts) w y (if keep then .cons v .nil else .nil)
  | list_more {a s keep m T Ts w u z y v l} : Means R V g a w (u ++ z ++ y) v → Derives R s u →
      Means R V g (.list a s keep (m - 1) T Ts) z y l →
      Means R V g (.list a s keep m T Ts) (w ++ (u ++ z)) y (.cons v l)

section
variable {ι β : Type} (R : Nat → Peg ι) (V : Nat → VPeg ι β) (g : List ι → List ι → β)

/-- Some text with a value begins with `x`. -/
def Begins (E : VPeg ι β) (x : ι) : Prop := ∃ w y v, Means R V g E (x :: w) y v

/-- The empty text has a value. -/
def Vacant (E : VPeg ι β) : Prop := ∃ y v, Means R V g E [] y v

/-- `E` has a result on every input. -/
def Answers (E : VPeg ι β) : Prop := ∀ x, ∃ r, Yields R V g E x r

/-- Where `a` is not to be had, `T` consumes nothing: the end of a list is where its last element
ends. -/
def EndsClean (a : VPeg ι β) (T : Peg ι) : Prop := ∀ x z, Yields R V g a x none → Ford R T x (some z) → z = x

/-- Every list in `E` (where `Q E`) ends clean. -/
structure Steady (Q : VPeg ι β → Prop) : Prop where
  nt {i} : Q (.nt i) → Q (V i)
  pair {a b} : Q (.pair a b) → Q a ∧ Q b
  after {e a} : Q (.after e a) → Q a
  before {a e} : Q (.before a e) → Q a
  cond {a t b} : Q (.cond a t b) → Q a ∧ Q b
  alt {a b} : Q (.alt a b) → Q a ∧ Q b
  longest {a b} : Q (.longest a b) → Q a ∧ Q b
  ite {c a b} : Q (.ite c a b) → Q a ∧ Q b
  opt {a} : Q (.opt a) → Q a
  map {f a} : Q (.map f a) → Q a
  bind {a k} : Q (.bind a k) → Q a ∧ ∀ v, Q (k v)
  many {a m n T} : Q (.many a m n T) → Q a ∧ EndsClean R V g a T
  /-- (the counts do not matter) -/
  many' {a m n m' n' T} : Q (.many a m n T) → Q (.many a m' n' T)
  list {a s keep m T Ts} : Q (.list a s keep m T Ts) → Q a ∧ EndsClean R V g a T ∧
    ∀ x z, Ford R s x none → Ford R Ts x (some z) → z = x
  list' {a s keep m m' T Ts} : Q (.list a s keep m T Ts) → Q (.list a s keep m' T Ts)
  /-- (these two are only used inside `many` and `list`) -/
  upto {a n T} : ¬ Q (.upto a n T)
  seps {a s keep T Ts} : ¬ Q (.seps a s keep T Ts)

/-- One item of lookahead decides.  `P e h` and `F E h` say that the delimiter or text `e` and
the expression `E` may be followed by `h`: an item, or the end of the text (`none`). -/
structure Foreseen (P : Peg ι → Option ι → Prop) (F : VPeg ι β → Option ι → Prop) : Prop where
  text {W e h} : F (.text W e) h → P (.seq W e) h
  nt {i h} : F (.nt i) h → F (V i) h
  first {a b h x} : F (.pair a b) h → Begins R V g b x → F a (some x)
  first' {a b h} : F (.pair a b) h → Vacant R V g b → F a h
  second {a b h} : F (.pair a b) h → F b h
  after {e a h x} : F (.after e a) h → Begins R V g a x → P e (some x)
  after' {e a h} : F (.after e a) h → Vacant R V g a → P e h
  inner {e a h} : F (.after e a) h → F a h
  before {a e h x} : F (.before a e) h → Starts R e x → F a (some x)
  before' {a e h} : F (.before a e) h → Nullable R e → F a h
  delim {a e h} : F (.before a e) h → P e h
  /-- a test that is not empty, and does not begin with what may follow -/
  test {a t b h} : F (.cond a t b) h → Halts R t ∧ ¬ Nullable R t ∧ ∀ x, Starts R t x → h ≠ some x
  cond_test {a t b h x} : F (.cond a t b) h → Starts R t x → F a (some x)
  cond_none {a t b h} : F (.cond a t b) h → F a h
  cond_then {a t b h} : F (.cond a t b) h → F b h
  test_then {a t b h x} : F (.cond a t b) h → Begins R V g b x → P t (some x)
  test_then' {a t b h} : F (.cond a t b) h → Vacant R V g b → P t h
  left {a b h} : F (.alt a b) h → F a h
  right {a b h} : F (.alt a b) h → F b h
  /-- two alternatives never begin with the same item, and only the last may be empty -/
  choice {a b h} : F (.alt a b) h → Answers R V g a ∧ ¬ Vacant R V g a ∧ ∀ x, Begins R V g a x →
    ¬ Begins R V g b x ∧ (Vacant R V g b → h ≠ some x)
  long_left {a b h} : F (.longest a b) h → F a h
  long_right {a b h} : F (.longest a b) h → F b h
  long {a b h} : F (.longest a b) h → Answers R V g a ∧ Answers R V g b ∧ ¬ Vacant R V g a ∧ ¬ Vacant R V g b ∧
    ∀ x, Begins R V g a x → ¬ Begins R V g b x
  ite {c a b h} : F (.ite c a b) h → F a h ∧ F b h
  opt {a h} : F (.opt a) h → F a h
  skipped {a h} : F (.opt a) h → Answers R V g a ∧ ¬ Vacant R V g a ∧ ∀ x, Begins R V g a x → h ≠ some x
  map {f a h} : F (.map f a) h → F a h
  bind {a k h x v} : F (.bind a k) h → Begins R V g (k v) x → F a (some x)
  bind' {a k h v} : F (.bind a k) h → Vacant R V g (k v) → F a h
  bound {a k h v} : F (.bind a k) h → F (k v) h
  many {a m n T h} : F (.many a m n T) h → F (.many a (m - 1) (n.map (· - 1)) T) h
  many_round {a m n T h x} : F (.many a m n T) h → Begins R V g a x → F a (some x)
  many_last {a m n T h} : F (.many a m n T) h → F a h
  many_item {a m n T h} : F (.many a m n T) h → ¬ Vacant R V g a
  /-- the list may end here: no further element can be meant -/
  many_end {a n T h} : F (.many a 0 n T) h → n ≠ some 0 → Answers R V g a ∧ (∀ x, Begins R V g a x → h ≠ some x) ∧
    ∀ x, ∃ z, Ford R T x (some z)
  list {a s keep m T Ts h} : F (.list a s keep m T Ts) h → F (.list a s keep (m - 1) T Ts) h
  list_item {a s keep m T Ts h} : F (.list a s keep m T Ts) h → ¬ Vacant R V g a
  list_sep {a s keep m T Ts h x} : F (.list a s keep m T Ts) h → Starts R s x → F a (some x)
  list_last {a s keep m T Ts h} : F (.list a s keep m T Ts) h → F a h
  sep_next {a s keep m T Ts h x} : F (.list a s keep m T Ts) h → Begins R V g a x → P s (some x)
  sep_last {a s keep m T Ts h} : F (.list a s keep m T Ts) h → P s h
  sep_end {a s keep m T Ts h} : F (.list a s keep m T Ts) h → Halts R s ∧ ¬ Nullable R s ∧
    (∀ x, Starts R s x → h ≠ some x) ∧ ∀ x, ∃ z, Ford R Ts x (some z)
  list_end {a s keep T Ts h} : F (.list a s keep 0 T Ts) h → Answers R V g a ∧ (∀ x, Begins R V g a x → h ≠ some x) ∧
    ∀ x, ∃ z, Ford R T x (some z)

end

/-! ## The tables of the textbook

`N`, `T`, `O` are the tables for the delimiters and texts (`Tables`), `M`, `S`, `U` those for the
values: which nonterminals may be empty, what they may begin with, what may follow them. -/

section
variable {ι β : Type}

/-- Read off the expression: may it be empty? -/
def VPeg.vacant (N : Nat → Bool) (M : Nat → Prop) : VPeg ι β → Prop
  | .text W e => W.nullable N = true ∧ e.nullable N = true
  | .fail => False
  | .nt i => M i
  | .pair a b => a.vacant N M ∧ b.vacant N M
  | .after e a => e.nullable N = true ∧ a.vacant N M
  | .before a e => a.vacant N M ∧ e.nullable N = true
  | .cond a _ _ => a.vacant N M
  | .alt a b | .longest a b | .ite _ a b => a.vacant N M ∨ b.vacant N M
  | .opt _ => True
  | .map _ a => a.vacant N M
  | .bind a k => a.vacant N M ∧ ∃ v, (k v).vacant N M
  | .upto _ _ _ | .seps _ _ _ _ _ => True
  | .many a m _ _ | .list a _ _ m _ _ => m = 0 ∨ a.vacant N M

/-- The same: may it begin with `x`? -/
def VPeg.begins (N : Nat → Bool) (T : Nat → ι → Bool) (M : Nat → Prop) (S : Nat → ι → Prop) : VPeg ι β → ι → Prop
  | .text W e, x => (Peg.seq W e).first N T x = true
  | .fail, _ => False
  | .nt i, x => S i x
  | .pair a b, x => a.begins N T M S x ∨ (a.vacant N M ∧ b.begins N T M S x)
  | .after e a, x => e.first N T x = true ∨ (e.nullable N = true ∧ a.begins N T M S x)
  | .before a e, x => a.begins N T M S x ∨ (a.vacant N M ∧ e.first N T x = true)
  | .cond a t b, x => a.begins N T M S x ∨ (a.vacant N M ∧ (t.first N T x = true ∨ (t.nullable N = true ∧ b.begins N T M S x)))
  | .alt a b, x | .longest a b, x | .ite _ a b, x => a.begins N T M S x ∨ b.begins N T M S x
  | .opt a, x | .map _ a, x | .upto a _ _, x | .many a _ _ _, x => a.begins N T M S x
  | .bind a k, x => a.begins N T M S x ∨ (a.vacant N M ∧ ∃ v, (k v).begins N T M S x)
  | .seps a s _ _ _, x | .list a s _ _ _ _, x => a.begins N T M S x ∨ (a.vacant N M ∧ s.first N T x = true)

/-- The nonterminals that `E` may try before it has consumed anything are in `K`. -/
def VPeg.leftIn (N : Nat → Bool) (M : Nat → Prop) (K : Nat → Prop) : VPeg ι β → Prop
  | .text _ _ | .fail => True
  | .nt i => K i
  | .pair a b => a.leftIn N M K ∧ (a.vacant N M → b.leftIn N M K)
  | .after e a => e.nullable N = true → a.leftIn N M K
  | .before a _ => a.leftIn N M K
  | .cond a t b => a.leftIn N M K ∧ (a.vacant N M → t.nullable N = true → b.leftIn N M K)
  | .alt a b | .longest a b | .ite _ a b => a.leftIn N M K ∧ b.leftIn N M K
  | .opt a | .map _ a | .upto a _ _ | .many a _ _ _ | .seps a _ _ _ _ | .list a _ _ _ _ _ => a.leftIn N M K
  | .bind a k => a.leftIn N M K ∧ (a.vacant N M → ∀ v, (k v).leftIn N M K)

/-- Elements of lists are never empty, and lists end clean. -/
def VPeg.tidy (R : Nat → Peg ι) (V : Nat → VPeg ι β) (g : List ι → List ι → β) (N : Nat → Bool) (M : Nat → Prop) :
    VPeg ι β → Prop
  | .text W e => W.loopsMove N ∧ e.loopsMove N
  | .fail | .nt _ => True
  | .pair a b | .alt a b | .longest a b | .ite _ a b => a.tidy R V g N M ∧ b.tidy R V g N M
  | .after e a => e.loopsMove N ∧ a.tidy R V g N M
  | .before a e => a.tidy R V g N M ∧ e.loopsMove N
  | .cond a t b => a.tidy R V g N M ∧ t.loopsMove N ∧ b.tidy R V g N M
  | .opt a | .map _ a => a.tidy R V g N M
  | .bind a k => a.tidy R V g N M ∧ ∀ v, (k v).tidy R V g N M
  | .upto _ _ _ | .seps _ _ _ _ _ => False
  | .many a _ _ T => a.tidy R V g N M ∧ ¬ a.vacant N M ∧ EndsClean R V g a T ∧ ∀ x, ∃ z, Ford R T x (some z)
  | .list a s _ _ T Ts => a.tidy R V g N M ∧ ¬ a.vacant N M ∧ (EndsClean R V g a T ∧ ∀ x, ∃ z, Ford R T x (some z)) ∧
      s.loopsMove N ∧ (∀ x z, Ford R s x none → Ford R Ts x (some z) → z = x) ∧ ∀ x, ∃ z, Ford R Ts x (some z)

/-- What may follow something in front of `E`, when `H` may follow `E`. -/
def VPeg.next (N : Nat → Bool) (T : Nat → ι → Bool) (M : Nat → Prop) (S : Nat → ι → Prop) (E : VPeg ι β)
    (H : Option ι → Prop) (h : Option ι) : Prop :=
  (∃ x, h = some x ∧ E.begins N T M S x) ∨ (E.vacant N M ∧ H h)

/-- No conflict in `E` when it is followed by `H`. -/
def VPeg.clear (R : Nat → Peg ι) (N : Nat → Bool) (T : Nat → ι → Bool) (O : Nat → Option ι → Prop)
    (M : Nat → Prop) (S : Nat → ι → Prop) (U : Nat → Option ι → Prop) : VPeg ι β → (Option ι → Prop) → Prop
  | .text W e, H => (Peg.seq W e).noConflict R N T O H
  | .fail, _ | .upto _ _ _, _ | .seps _ _ _ _ _, _ => True
  | .nt i, H => ∀ h, H h → U i h
  | .pair a b, H => b.clear R N T O M S U H ∧ a.clear R N T O M S U (b.next N T M S H)
  | .after e a, H => a.clear R N T O M S U H ∧ e.noConflict R N T O (a.next N T M S H)
  | .before a e, H => e.noConflict R N T O H ∧
      a.clear R N T O M S U fun h => (∃ x, h = some x ∧ e.first N T x = true) ∨ (e.nullable N = true ∧ H h)
  | .cond a t b, H => b.clear R N T O M S U H ∧ t.noConflict R N T O (b.next N T M S H) ∧ t.nullable N = false ∧
      (∀ x, t.first N T x = true → ¬ H (some x)) ∧
      a.clear R N T O M S U fun h => (∃ x, h = some x ∧ t.first N T x = true) ∨ H h
  | .alt a b, H => a.clear R N T O M S U H ∧ b.clear R N T O M S U H ∧ ¬ a.vacant N M ∧
      ∀ x, a.begins N T M S x → ¬ b.begins N T M S x ∧ (b.vacant N M → ¬ H (some x))
  | .longest a b, H => a.clear R N T O M S U H ∧ b.clear R N T O M S U H ∧ ¬ a.vacant N M ∧ ¬ b.vacant N M ∧
      ∀ x, a.begins N T M S x → ¬ b.begins N T M S x
  | .ite _ a b, H => a.clear R N T O M S U H ∧ b.clear R N T O M S U H
  | .opt a, H => a.clear R N T O M S U H ∧ ¬ a.vacant N M ∧ ∀ x, a.begins N T M S x → ¬ H (some x)
  | .map _ a, H => a.clear R N T O M S U H
  | .bind a k, H => (∀ v, (k v).clear R N T O M S U H) ∧
      a.clear R N T O M S U fun h => ∃ v, (k v).next N T M S H h
  /- a list of a fixed length needs no end -/
  | .many a m n _, H => ((∃ j, n = some j ∧ j ≤ m) ∨ ∀ x, a.begins N T M S x → ¬ H (some x)) ∧
      a.clear R N T O M S U fun h => (∃ x, h = some x ∧ a.begins N T M S x) ∨ H h
  | .list a s _ _ _ _, H => s.nullable N = false ∧ (∀ x, a.begins N T M S x → ¬ H (some x)) ∧
      (∀ x, s.first N T x = true → ¬ H (some x)) ∧
      (s.noConflict R N T O fun h => (∃ x, h = some x ∧ a.begins N T M S x) ∨ H h) ∧
      a.clear R N T O M S U fun h => (∃ x, h = some x ∧ s.first N T x = true) ∨ H h

/-- No nonterminal occurs in the texts and delimiters of the expression. -/
def VPeg.flat : VPeg ι β → Prop
  | .text W e => W.NoNt ∧ e.NoNt
  | .fail | .nt _ => True
  | .pair a b | .alt a b | .longest a b | .ite _ a b => a.flat ∧ b.flat
  | .after e a => e.NoNt ∧ a.flat
  | .before a e => a.flat ∧ e.NoNt
  | .cond a t b => a.flat ∧ t.NoNt ∧ b.flat
  | .opt a | .map _ a => a.flat
  | .bind a k => a.flat ∧ ∀ v, (k v).flat
  | .upto a _ T | .many a _ _ T => a.flat ∧ T.NoNt
  | .seps a s _ T Ts | .list a s _ _ T Ts => a.flat ∧ s.NoNt ∧ T.NoNt ∧ Ts.NoNt

/-- The tables are closed under the rules and there is no conflict. -/
structure VTables (R : Nat → Peg ι) (V : Nat → VPeg ι β) (g : List ι → List ι → β) (N : Nat → Bool)
    (T : Nat → ι → Bool) (O : Nat → Option ι → Prop) (M : Nat → Prop) (S : Nat → ι → Prop) (U : Nat → Option ι → Prop)
    (rank rank' : Nat → Nat) : Prop where
  texts : Tables R N T O rank
  vacant : ∀ i, (V i).vacant N M → M i
  begins : ∀ i x, (V i).begins N T M S x → S i x
  tidy : ∀ i, (V i).tidy R V g N M
  /-- no left recursion -/
  ranked : ∀ i, (V i).leftIn N M fun j => rank' j < rank' i
  follow : ∀ i, (V i).clear R N T O M S U (U i)

end
end Neure
