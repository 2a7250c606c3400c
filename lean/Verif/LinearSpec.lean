import Verif.SpaceSpec
import Verif.WorkSpec
/-!
# Where one item of lookahead decides: what is read off a grammar

A plan is a pattern with the calls that matching (or building) it makes written down.
The tables of the textbook (what may be empty, what may begin, what may follow) are
read off plans; `Decided` says that they have no conflict.
-/

namespace Neure

/-- A pattern as the calls it makes. -/
inductive Plan (ι : Type) where
  /-- nothing to do -/
  | eps
  /-- a call that never succeeds -/
  | fail
  /-- a call of a primitive pattern, which matches like `e` -/
  | leaf (e : Peg ι)
  /-- a part that makes at most `k` calls and `k` more for every item it consumes; `n`: it may
  be empty, `f`: what it may begin with -/
  | part (k : Nat) (n : Bool) (f : ι → Bool)
  /-- a call of the recursive handle `i` to match (`false`) or to build (`true`), and its content -/
  | nt (build : Bool) (i : Nat)
  /-- a call, and what it does -/
  | call (a : Plan ι)
  /-- a call that skips blanks, then `a` -/
  | skip (a : Plan ι)
  /-- `a`, and then a closure that may fail -/
  | may (a : Plan ι)
  | seq (a b : Plan ι)
  | alt (a b : Plan ι)
  /-- if `t` then `b` too -/
  | cond (t b : Plan ι)
  /-- at least `m` and at most `n` times -/
  | rep (a : Plan ι) (m : Nat) (n : Option Nat)
  /-- a list with separators of at least `m` elements; `keep`: the last one, without a
  separator behind it, counts -/
  | list (a s : Plan ι) (keep : Bool) (m : Nat)

namespace Plan
variable {ι : Type}

/-- May it succeed without consuming anything but blanks? -/
def nullable (N : Bool → Nat → Bool) : Plan ι → Bool
  | .eps | .cond _ _ => true
  | .fail => false
  | .leaf e => e.nullable fun _ => false
  | .part _ n _ => n
  | .nt k i => N k i
  | .call a | .skip a | .may a => a.nullable N
  | .seq a b => a.nullable N && b.nullable N
  | .alt a b => a.nullable N || b.nullable N
  | .rep a m _ | .list a _ _ m => m == 0 || a.nullable N

/-- May the first item it consumes, after blanks, be `x`? -/
def first (N : Bool → Nat → Bool) (T : Bool → Nat → ι → Bool) : Plan ι → ι → Bool
  | .eps, _ | .fail, _ => false
  | .leaf e, x => e.begins x
  | .part _ _ f, x => f x
  | .nt k i, x => T k i x
  | .call a, x | .skip a, x | .may a, x | .rep a _ _, x => a.first N T x
  | .seq a b, x | .cond a b, x | .list a b _ _, x => a.first N T x || (a.nullable N && b.first N T x)
  | .alt a b, x => a.first N T x || b.first N T x

/-- The handles it may call before it has consumed anything but blanks have a rank below `k`. -/
def leftBelow (N : Bool → Nat → Bool) (rank : Bool → Nat → Nat) (k : Nat) : Plan ι → Prop
  | .eps | .fail | .leaf _ | .part _ _ _ => True
  | .nt j i => rank j i < k
  | .call a | .skip a | .may a | .rep a _ _ => a.leftBelow N rank k
  | .seq a b | .cond a b | .list a b _ _ =>
      a.leftBelow N rank k ∧ (a.nullable N = true → b.leftBelow N rank k)
  | .alt a b => a.leftBelow N rank k ∧ b.leftBelow N rank k

/-- Primitive patterns do not begin with a blank. -/
def Clear (b : ι → Bool) : Plan ι → Prop
  | .eps | .fail | .nt _ _ => True
  | .leaf e => ∀ c, e.begins c = true → b c = false
  | .part _ _ f => ∀ c, f c = true → b c = false
  | .call a | .skip a | .may a | .rep a _ _ => a.Clear b
  | .seq x y | .alt x y | .cond x y | .list x y _ _ => x.Clear b ∧ y.Clear b

/-- What may follow when `first` may begin the next thing, and `H` may follow that if it may be empty. -/
def Next (first : ι → Bool) (empty : Bool) (H : Option ι → Prop) (h : Option ι) : Prop :=
  (∃ x, h = some x ∧ first x = true) ∨ (empty = true ∧ H h)

/-- The next item, after blanks, decides everywhere, when `H` may follow (an item, or the end of
the text): alternatives begin differently, what is optional or repeated begins differently
from what may follow, and what is repeated is not empty.  `O` is the table of what may follow
the handles. -/
def Decided (N : Bool → Nat → Bool) (T : Bool → Nat → ι → Bool) (O : Bool → Nat → Option ι → Prop) :
    Plan ι → (Option ι → Prop) → Prop
  | .eps, _ | .fail, _ | .leaf _, _ | .part _ _ _, _ => True
  | .nt k i, H => ∀ h, H h → O k i h
  | .call a, H | .skip a, H | .may a, H => a.Decided N T O H
  | .seq a b, H => a.Decided N T O (Next (b.first N T) (b.nullable N) H) ∧ b.Decided N T O H
  | .alt a b, H => a.Decided N T O H ∧ b.Decided N T O H ∧
      ∀ x, a.first N T x = true → b.first N T x = false ∧ (b.nullable N = true → ¬ H (some x))
  | .cond t b, H => t.Decided N T O (Next (b.first N T) (b.nullable N) H) ∧ b.Decided N T O H ∧
      ∀ x, t.first N T x = true → ¬ H (some x)
  | .rep a _ _, H => a.Decided N T O (Next (a.first N T) true H) ∧ a.nullable N = false ∧
      ∀ x, a.first N T x = true → ¬ H (some x)
  | .list a s _ _, H => a.Decided N T O (Next (s.first N T) true H) ∧
      s.Decided N T O (Next (a.first N T) true H) ∧ a.nullable N = false ∧ s.nullable N = false ∧
      ∀ x, a.first N T x = true ∨ s.first N T x = true → ¬ H (some x)

end Plan

/-- The tables fit the rules: `N` and `T` have what may be empty and what may begin, nothing
is left-recursive, the next item decides everywhere, and there are finitely many rules. -/
structure OneAhead {ι : Type} (b : ι → Bool) (P : Bool → Nat → Plan ι) (N : Bool → Nat → Bool)
    (T : Bool → Nat → ι → Bool) (O : Bool → Nat → Option ι → Prop) : Prop where
  empty : ∀ k i, (P k i).nullable N = true → N k i = true
  begins : ∀ k i x, (P k i).first N T x = true → T k i x = true
  decided : ∀ k i, (P k i).Decided N T O (O k i)
  clear : ∀ k i, (P k i).Clear b
  finite : ∃ l : List (Plan ι), ∀ k i, P k i ∈ l
  noLeft : ∃ (rank : Bool → Nat → Nat) (D : Nat), ∀ k i, (P k i).leftBelow N rank (rank k i) ∧ rank k i ≤ D

variable {ι β σ : Type} [Item ι]

/-- How a pattern is called from another one: with a skip in front in a context with a policy. -/
def Plan.via (skipping : Bool) (a : Plan ι) : Plan ι := if skipping then .skip a else a

/-- The next item that is no blank. -/
def ahead (b : ι → Bool) (x : List ι) : Option ι := (x.dropWhile b).head?

/-- `p` makes at most `k` calls and `k` more for every item it consumes that is no blank; it
consumes none only if `n`, and the first one is from `f`.  When it fails, the position is where it
was, and unless the next item is from `f` it has made at most `k` calls. -/
def Measured (G : Rules ι β) (pol : Option (Pat ι β)) (b : ι → Bool) (p : Pat ι β) (k : Nat) (n : Bool) (f : ι → Bool) : Prop :=
  ∀ fuel pre x r c o', workParse G fuel pol (pre ++ x) p ((), 0) (blen pre) = some (.done r ((), c) o') →
    match r with
    | .ok _ => ∃ t y, x = t ++ y ∧ o' = blen (pre ++ t) ∧ (ahead b t = none → n = true) ∧
        (∀ a, ahead b t = some a → f a = true) ∧ c ≤ k + k * t.countP fun a => !b a
    | .error _ => o' = blen pre ∧ (c ≤ k ∨ ((∃ a, ahead b x = some a ∧ f a = true) ∧ c ≤ k + k * x.countP fun a => !b a))

/-- The calls of `try_parse` of a pattern; `S` has the parts that are measured. -/
inductive Calls (w : Bool) (S : Pat ι β → Nat → Bool → (ι → Bool) → Prop) : Pat ι β → Plan ι → Prop where
  | part {p k n f} : (∀ er l, p ≠ .choice er l) → S p k n f → Calls w S p (.part k n f)
  | leaf {p e} : Primitive p → AsPeg p e → Calls w S p (.leaf e)
  | fail : Calls w S .fail .fail
  | cell (i) : Calls w S (.cell i) (.nt false i)
  | map {p a} (f) : Calls w S p a → Calls w S (.map p f) (.call (a.via w))
  | pat {p a} : Calls w S p a → Calls w S (.pat p) (.call (a.via w))
  | thn {p q a b} : Calls w S p a → Calls w S q b → Calls w S (.thn p q) (.call (.seq (a.via w) (b.via w)))
  | pre {p q a b} : Calls w S p a → Calls w S q b → Calls w S (.pre p q) (.call (.seq (a.via w) (b.via w)))
  | suf {p q a b} : Calls w S p a → Calls w S q b → Calls w S (.suf p q) (.call (.seq (a.via w) (b.via w)))
  | enclose {p q r a b c} : Calls w S p a → Calls w S q b → Calls w S r c →
      Calls w S (.enclose p q r) (.call (.seq (a.via w) (.seq (b.via w) (c.via w))))
  | sepOnce {p q r a b c} : Calls w S p a → Calls w S q b → Calls w S r c →
      Calls w S (.sepOnce p q r) (.call (.seq (a.via w) (.seq (b.via w) (c.via w))))
  | ifThen {p q r a b c} : Calls w S p a → Calls w S q b → Calls w S r c →
      Calls w S (.ifThen p q r) (.call (.seq (a.via w) (.cond (b.via w) (c.via w))))
  | or {p q a b} : Calls w S p a → Calls w S q b → Calls w S (.or p q) (.call (.alt (a.via w) (b.via w)))
  | opt {p a} : Calls w S p a → Calls w S (.opt p) (.call (.alt (a.via w) .eps))
  | choice_nil (er) : Calls w S (.choice er []) .fail
  | choice_cons (er) {p v items a b} : Calls w S p a → Calls w S (.choice er items) b →
      Calls w S (.choice er ((p, v) :: items)) (.call (.alt (a.via w) b))
  | rep {p a} (r m n) : Calls w S p a → Counts r m n → Calls w S (.rep p r) (.call (.rep (a.via w) m n))
  | collect {p a} (m) : Calls w S p a → Calls w S (.collect p m) (.call (.rep (a.via w) m none))
  | sep {p s a b} (keep m) : Calls w S p a → Calls w S s b →
      Calls w S (.sep p s keep m) (.call (.list (a.via w) (b.via w) keep m))
  | sepCollect {p s a b} (keep m) : Calls w S p a → Calls w S s b →
      Calls w S (.sepCollect p s keep m) (.call (.list (a.via w) (b.via w) keep m))

/-- The calls of `construct` of a pattern.  A part that is
built is called directly, a part that is only matched with a skip in front. -/
inductive Builds (w : Bool) (S : Pat ι β → Nat → Bool → (ι → Bool) → Prop) : Pat ι β → Plan ι → Prop where
  | leaf {p e} : Primitive p → AsPeg p e → Builds w S p (.call (.may ((Plan.leaf e).via w)))
  | fail : Builds w S .fail (.call (.may (Plan.fail.via w)))
  | unit {p c k n f} : condOf p = some c → S p k n f → Builds w S p (.call (.may ((Plan.part k n f).via w)))
  | cell (i) : Builds w S (.cell i) (.nt true i)
  | map {p a} (f) : Builds w S p a → Builds w S (.map p f) (.call (.may a))
  | pat {p a} : Calls w S p a → Builds w S (.pat p) (.call (.may (a.via w)))
  | thn {p q a b} : Builds w S p a → Builds w S q b → Builds w S (.thn p q) (.call (.seq a b))
  | pre {p q a b} : Calls w S p a → Builds w S q b → Builds w S (.pre p q) (.call (.seq (a.via w) b))
  | suf {p q a b} : Builds w S p a → Calls w S q b → Builds w S (.suf p q) (.call (.seq a (b.via w)))
  | enclose {p q r a b c} : Calls w S p a → Builds w S q b → Calls w S r c →
      Builds w S (.enclose p q r) (.call (.seq (a.via w) (.seq b (c.via w))))
  | sepOnce {p q r a b c} : Builds w S p a → Calls w S q b → Builds w S r c →
      Builds w S (.sepOnce p q r) (.call (.seq a (.seq (b.via w) c)))
  | ifThen {p q r a b c} : Builds w S p a → Calls w S q b → Builds w S r c →
      Builds w S (.ifThen p q r) (.call (.seq a (.cond (b.via w) c)))
  | or {p q a b} : Builds w S p a → Builds w S q b → Builds w S (.or p q) (.call (.alt a b))
  | opt {p a} : Builds w S p a → Builds w S (.opt p) (.call (.alt a .eps))
  | choice_nil (er) : Builds w S (.choice er []) .fail
  | choice_cons (er) {p v items a b} : Builds w S p a → Builds w S (.choice er items) b →
      Builds w S (.choice er ((p, v) :: items)) (.call (.alt a b))
  | rep {p a} (r m n) : Builds w S p a → Counts r m n → Builds w S (.rep p r) (.call (.rep a m n))
  | collect {p a} (m) : Builds w S p a → Builds w S (.collect p m) (.call (.rep a m none))
  | sep {p s a b} (keep m) : Builds w S p a → Calls w S s b →
      Builds w S (.sep p s keep m) (.call (.list a (b.via w) keep m))

/-- The plans of the handles are those of their patterns; one that was never given a pattern
fails. -/
def CallsRules (w : Bool) (S : Pat ι β → Nat → Bool → (ι → Bool) → Prop) (G : Rules ι β) (P : Bool → Nat → Plan ι) : Prop :=
  ∀ i, (∃ p, G i = some p ∧ Calls w S p (P false i)) ∨ (G i = none ∧ P false i = .fail)

def BuildsRules (w : Bool) (S : Pat ι β → Nat → Bool → (ι → Bool) → Prop) (G : Rules ι β) (P : Bool → Nat → Plan ι) : Prop :=
  ∀ i, (∃ p, G i = some p ∧ Builds w S p (P true i)) ∨ (G i = none ∧ P true i = .fail)

/-- The context: no policy, or a policy that skips any number of blanks. -/
def SkipsBlanks (w : Bool) (pol : Option (Pat ι β)) (b : ι → Bool) : Prop :=
  if w then ∃ u : Neu ι, pol = some (.many0 u .empty) ∧ b = u.isMatch else pol = none ∧ b = fun _ => false

end Neure
