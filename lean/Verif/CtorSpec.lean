import Verif.Ctor
import Verif.Spec
/-!
# Specification vocabulary for value construction (C13–C21, C46, C50)
-/

namespace Neure

set_option linter.unusedSectionVars false

variable {ι β σ : Type} [Item ι]

/-- `Built G H pol d p vs st o st' o'`: starting at offset `o` with the handler in
state `st`, constructing `p` again and again succeeds `vs.length` times, each time
starting where the previous one stopped, and yields the values `vs` in this
order; afterwards the handler is in state `st'` and the offset is `o'`. -/
inductive Built (G : Rules ι β) (H : Handler ι β σ) (pol : Option (Pat ι β)) (d : List ι)
    (p : Pat ι β) : List (Val β) → σ → Nat → σ → Nat → Prop where
  | nil (st : σ) (o : Nat) : Built G H pol d p [] st o st o
  | cons {v : Val β} {vs : List (Val β)} {st st1 st' : σ} {o o1 o' : Nat} :
      Constructs G H pol d p st o (.ok v st1 o1) → Built G H pol d p vs st1 o1 st' o' →
      Built G H pol d p (v :: vs) st o st' o'

/-- The same for "construct `p`, then match the separator `s`". -/
inductive BuiltSep (G : Rules ι β) (H : Handler ι β σ) (pol : Option (Pat ι β)) (d : List ι)
    (p s : Pat ι β) : List (Val β) → σ → Nat → σ → Nat → Prop where
  | nil (st : σ) (o : Nat) : BuiltSep G H pol d p s [] st o st o
  | cons {v : Val β} {vs : List (Val β)} {st st1 st' : σ} {ss : Span} {o o1 o2 o' : Nat} :
      Constructs G H pol d p st o (.ok v st1 o1) → Runs G pol d s o1 (.ok ss o2) →
      BuiltSep G H pol d p s vs st1 o2 st' o' →
      BuiltSep G H pol d p s (v :: vs) st o st' o'

/-- What a separated list finds when constructing: `vs` are the values of the
elements followed by a separator; then either no further element can be
constructed (`x = none`), or a further element with value `x` can, but no
separator follows it.  `st'`, `o'` describe the handler and the offset after the
last, failing attempt. -/
def BuiltList (G : Rules ι β) (H : Handler ι β σ) (pol : Option (Pat ι β)) (d : List ι)
    (p s : Pat ι β) (st : σ) (o : Nat) (vs : List (Val β)) (x : Option (Val β)) (st' : σ) (o' : Nat) :
    Prop :=
  ∃ st1 o1, BuiltSep G H pol d p s vs st o st1 o1 ∧
    match x with
    | none => ∃ e, Constructs G H pol d p st1 o1 (.err e st' o')
    | some v => ∃ o2 e, Constructs G H pol d p st1 o1 (.ok v st' o2) ∧ Runs G pol d s o2 (.err e o')

/-- Immediate components of `p` that are *constructed* when `p` is constructed
(delimiters, tests and conditions are only matched). -/
def CChild (G : Rules ι β) (q : Pat ι β) : Pat ι β → Prop
  | .opt p | .rep p _ | .rep2 p _ _ | .collect p _ | .map p _ | .pre _ p | .suf p _
  | .enclose _ p _ | .sep p _ _ _ | .sep2 p _ _ _ _ | .sepCollect p _ _ _ => q = p
  | .thn a b | .or a b | .longest a b | .branch _ a b | .ifThen a _ b | .sepOnce a _ b =>
    q = a ∨ q = b
  | .choice _ items | .ltm _ items => ∃ it ∈ items, q = it.1
  | .dthen p f => q = p ∨ ∃ d o v o', f d o v = .ok q o'
  | .cell i => G i = some q
  | _ => False

/-- `q` is reachable from `p` through constructed components. -/
inductive CDesc (G : Rules ι β) (p : Pat ι β) : Pat ι β → Prop where
  | refl : CDesc G p p
  | step {q r} : CDesc G p q → CChild G r q → CDesc G p r

/-- `P` holds of `p` and of everything constructed inside it. -/
def CAll (G : Rules ι β) (P : Pat ι β → Prop) (p : Pat ι β) : Prop := ∀ q, CDesc G p q → P q

/-- A handler that never fails. -/
def Handler.Total (H : Handler ι β σ) : Prop := ∀ d o s st, ∃ b st', H d o s st = (.ok b, st')

/-- A handler that never panics. -/
def Handler.NoPanic (H : Handler ι β σ) : Prop := ∀ d o s st, (H d o s st).1 ≠ .panic

/-- Local condition for C19: not one of the constructors for which matching and
constructing differ (`ltm`, `sep_collect`, `dyn_then_ctor`; `repeat2` / `sep2`
only if `arr`), `longest` only over tidy alternatives, mappers succeed. -/
def Agree (G : Rules ι β) (arr : Prop) : Pat ι β → Prop
  | .ltm _ _ | .sepCollect _ _ _ _ | .dthen _ _ => False
  | .rep2 _ _ _ | .sep2 _ _ _ _ _ => arr
  | .longest a b => All G Tidy a ∧ All G Tidy b
  | .map _ f => ∀ v, ∃ w, f v = .ok w
  | _ => True

/-- The value an alternative contributes: in a list of plain alternatives its
own, in a list of (pattern, value) pairs the pair of the two. -/
def altValue (tag : Option (Val β)) (w : Val β) : Val β :=
  match tag with
  | none => w
  | some k => .pair w k

/-- `Attempts … items outs st c st' c'`: the alternatives `items` are constructed
one after the other, each from offset `o`; `outs` lists for each one its value
and the offset it reached, or `none` if it failed.  `st`/`st'` is the handler
state before/after, `c'` the offset the last attempt left (`c` if there is none). -/
inductive Attempts (G : Rules ι β) (H : Handler ι β σ) (pol : Option (Pat ι β)) (d : List ι) (o : Nat) :
    List (Pat ι β × Option (Val β)) → List (Option (Val β × Nat)) → σ → Nat → σ → Nat → Prop where
  | nil (st : σ) (c : Nat) : Attempts G H pol d o [] [] st c st c
  | ok {it items outs st st1 st' v c o1 c'} : Constructs G H pol d it.1 st o (.ok v st1 o1) →
      Attempts G H pol d o items outs st1 o1 st' c' →
      Attempts G H pol d o (it :: items) (some (altValue it.2 v, o1) :: outs) st c st' c'
  | err {it items outs st st1 st' e c o1 c'} : Constructs G H pol d it.1 st o (.err e st1 o1) →
      Attempts G H pol d o items outs st1 o1 st' c' →
      Attempts G H pol d o (it :: items) (none :: outs) st c st' c'

/-- Constructors that restore the position when a part fails (C20). -/
def Guarded : Pat ι β → Prop
  | .thn _ _ | .ifThen _ _ _ | .pre _ _ | .suf _ _ | .enclose _ _ _ | .sepOnce _ _ _ | .or _ _
  | .longest _ _ | .choice _ _ | .rep _ _ | .rep2 _ _ _ | .collect _ _ | .sep _ _ _ _
  | .sep2 _ _ _ _ _ | .sepCollect _ _ _ _ | .branch _ _ _ => True
  | _ => False

/-- Constructors whose `construct` is `try_mat` followed by the handler. -/
def IsLeaf : Pat ι β → Prop
  | .empty | .fail | .start | .anchorEnd | .consume _ | .consumeAll | .lit _ | .native _
  | .once _ _ | .many1 _ _ | .optU _ _ | .many0 _ _ | .between _ _ _ _ | .times _ _ _
  | .thenU _ _ _ | .assert _ _ | .build _ _ | .pat _ => True
  | _ => False

/-- Local condition for the general part of C20: mappers and builder closures do
not fail, no `ltm`, and leaves restore when matching (C01). -/
def CRestores (G : Rules ι β) : Pat ι β → Prop
  | .ltm _ _ => False
  | .map _ f => ∀ v e, f v ≠ .err e
  | .dthen _ f => ∀ d o v e o', f d o v ≠ .err e o'
  | p => IsLeaf p → All G Restores p

/-! ## Constructed slices (C46) -/

/-- The handler's values inside a constructed value, from left to right. -/
def Val.leaves : Val β → List β
  | .base b => [b]
  | .pair a b => a.leaves ++ b.leaves
  | .none => []
  | .some a => a.leaves
  | .nil => []
  | .cons a l => a.leaves ++ l.leaves

/-- `l` is the text of `d` between the positions `o` and `o'`. -/
def TextBetween (d : List ι) (o : Nat) (l : List ι) (o' : Nat) : Prop :=
  ∃ pre post, d = pre ++ l ++ post ∧ blen pre = o ∧ blen pre + blen l = o'

/-- Local condition: no constructor that drops matched text (delimiters,
separators), transforms values or tags them. -/
def TextKept : Pat ι β → Prop
  | .thn _ _ | .or _ _ | .longest _ _ | .opt _ | .rep _ _ | .rep2 _ _ _ | .collect _ _
  | .branch _ _ _ | .cell _ => True
  | .choice _ items => ∀ it ∈ items, it.2 = none
  | p => IsLeaf p

/-- Local condition for patterns that fail without calling the handler. -/
def Silent : Pat ι β → Prop
  | .or _ _ | .pre _ _ | .branch _ _ _ | .choice _ _ | .cell _ => True
  | p => IsLeaf p

/-- Local condition: whatever is tried and given up again is silent; the last
element of a separated list is not dropped; values are not transformed. -/
def Direct (G : Rules ι β) : Pat ι β → Prop
  | .or a _ => CAll G Silent a
  | .opt a | .rep a _ | .rep2 a _ _ | .collect a _ => CAll G Silent a
  | .sep a _ skip _ | .sep2 a _ skip _ _ => CAll G Silent a ∧ skip = true
  | .choice _ items => ∀ it ∈ items, CAll G Silent it.1 ∧ it.2 = none
  | .thn _ _ | .ifThen _ _ _ | .pre _ _ | .suf _ _ | .enclose _ _ _ | .sepOnce _ _ _
  | .branch _ _ _ | .dthen _ _ | .cell _ => True
  | p => IsLeaf p

/-- A handler that extracts slices and logs every slice it returns. -/
def logH : Handler ι (List ι) (List (List ι)) := fun d _ s log =>
  match origSub d s.beg s.len with
  | .ok l => (.ok l, log ++ [l])
  | .err e => (.err e, log)
  | .panic => (.panic, log)

end Neure
