import Verif.Match
/-!
# Span storers and span iterators: `src/span.rs`, `src/iter/*.rs`

`VecStorer` keeps a growable list of spans per group, `ArrayStorer<M, N>` a
fixed table of optional spans.  Both borrow a context only in `try_cap`.
-/

namespace Neure

set_option linter.unusedSectionVars false

variable {ι β : Type} [Item ι]

/-- `IndexBySpan::get_by_span`, `src/iter/mod.rs:18-64`: `self.get(beg..beg+len)`;
`none` if the range is out of bounds or not on item boundaries.  (The addition
`beg + len` is on unbounded numbers here.) -/
def getBySpan (d : List ι) (s : Span) : Option (List ι) :=
  match dropB d s.beg with
  | none => none
  | some l => takeB l s.len

/-! ## Iterators -/

/-- The state of a span iterator: `src/iter/span.rs:6-12` (`IteratorBySpan`,
without the borrowed value), `:55-59` (`SpanIterator`), `:83-89`
(`IteratorByOptionSpan`), `:127-131` (`OptionSpanIterator`), and
`src/iter/byte.rs:2-6` (`BytesIndices`).  `elems` is the borrowed slice. -/
structure Cursor (α : Type) where
  cur : Nat
  elems : List α
  deriving DecidableEq, Repr

/-- The `new` functions: `src/iter/span.rs:23-29, 62-64, 92-98, 134-136`,
`src/iter/byte.rs:16-20`. -/
def Cursor.new {α : Type} (l : List α) : Cursor α := ⟨0, l⟩

/-- `IteratorBySpan::next`, `src/iter/span.rs:38-43`. -/
def Cursor.nextSlice (d : List ι) (c : Cursor Span) : Option (List ι) × Cursor Span :=
  ((c.elems[c.cur]?).bind (getBySpan d), { c with cur := c.cur + 1 })

/-- `SpanIterator::next`, `src/iter/span.rs:70-79`. -/
def Cursor.nextSpan (c : Cursor Span) : Option Span × Cursor Span :=
  if c.cur < c.elems.length then (c.elems[c.cur]?, { c with cur := c.cur + 1 }) else (none, c)

/-- `IteratorByOptionSpan::next`, `src/iter/span.rs:107-115`. -/
def Cursor.nextOptSlice (d : List ι) (c : Cursor (Option Span)) :
    Option (List ι) × Cursor (Option Span) :=
  (((c.elems[c.cur]?).bind id).bind (getBySpan d), { c with cur := c.cur + 1 })

/-- `OptionSpanIterator::next`, `src/iter/span.rs:142-151`. -/
def Cursor.nextOptSpan (c : Cursor (Option Span)) : Option Span × Cursor (Option Span) :=
  if c.cur < c.elems.length then ((c.elems[c.cur]?).bind id, { c with cur := c.cur + 1 })
  else (none, c)

/-- `BytesIndices::next`, `src/iter/byte.rs:28-37`. -/
def Cursor.nextByte {α : Type} (c : Cursor α) : Option (Nat × α) × Cursor α :=
  if c.cur < c.elems.length then
    ((c.elems[c.cur]?).map (fun b => (c.cur, b)), { c with cur := c.cur + 1 })
  else (none, c)

/-- `size_hint` (both bounds are equal), `src/iter/span.rs:45-49, 117-121`,
`src/iter/byte.rs:39-43`: `len - cur`; `none` is the subtraction overflow panic. -/
def Cursor.sizeHint {α : Type} (c : Cursor α) : Option Nat :=
  if c.cur ≤ c.elems.length then some (c.elems.length - c.cur) else none

/-- Calling `next()` `k` times: the results and the final state (not a function
of the crate). -/
def callNext {σ α : Type} (next : σ → Option α × σ) : Nat → σ → List (Option α) × σ
  | 0, s => ([], s)
  | k + 1, s => ((next s).1 :: (callNext next k (next s).2).1, (callNext next k (next s).2).2)

/-- A `for` loop over the iterator: `next()` until the first `None`; the first
argument is fuel. -/
def forLoop {σ α : Type} (next : σ → Option α × σ) : Nat → σ → Option (List α)
  | 0, _ => none
  | k + 1, s => match (next s).1 with
    | none => some []
    | some a => (forLoop next k (next s).2).map (a :: ·)

/-! ## `VecStorer` -/

/-- `src/span.rs:97-100` `VecStorer`. -/
structure VecStorer where
  groups : List (List Span)
  deriving DecidableEq, Repr

namespace VecStorer

/-- `VecStorer::new`, `src/span.rs:105-109`. -/
def new (capacity : Nat) : VecStorer := ⟨List.replicate capacity []⟩

/-- `VecStorer::new_with`, `src/span.rs:112-114`. -/
def newWith (g : List (List Span)) : VecStorer := ⟨g⟩

/-- `VecStorer::with_capacity`, `src/span.rs:120-123`. -/
def withCapacity (_ : VecStorer) (capacity : Nat) : VecStorer := ⟨List.replicate capacity []⟩

/-- `VecStorer::len`, `src/span.rs:126-128`. -/
def len (v : VecStorer) : Nat := v.groups.length

/-- `VecStorer::reset`, `src/span.rs:137-140`. -/
def reset (v : VecStorer) : VecStorer := ⟨v.groups.map fun _ => []⟩

/-- `VecStorer::contain`, `src/span.rs:148-150`. -/
def contain (v : VecStorer) (id : Nat) : Bool :=
  ((v.groups[id]?).map fun g => !g.isEmpty).getD false

/-- `VecStorer::add_span`, `src/span.rs:156-159`; `none` is the indexing panic. -/
def addSpan (v : VecStorer) (id : Nat) (s : Span) : Option VecStorer :=
  match v.groups[id]? with
  | none => none
  | some g => some ⟨v.groups.set id (g ++ [s])⟩

/-- `VecStorer::clr_span`, `src/span.rs:164-169`. -/
def clrSpan (v : VecStorer) (id : Nat) : VecStorer :=
  match v.groups[id]? with
  | none => v
  | some _ => ⟨v.groups.set id []⟩

/-- `VecStorer::span`, `src/span.rs:176-178`. -/
def span (v : VecStorer) (id index : Nat) : Option Span := (v.groups[id]?).bind (·[index]?)

/-- `VecStorer::spans`, `src/span.rs:185-189`. -/
def spans (v : VecStorer) (id : Nat) : Option (List Span) :=
  (v.groups[id]?).bind fun g => if g.isEmpty then none else some g

/-- `VecStorer::spans_iter`, `src/span.rs:194-196`. -/
def spansIter (v : VecStorer) (id : Nat) : Option (Cursor Span) := (v.spans id).map Cursor.new

/-- `VecStorer::slice`, `src/span.rs:209-221`. -/
def slice (v : VecStorer) (d : List ι) (id index : Nat) : Option (List ι) :=
  (v.span id index).bind (getBySpan d)

/-- `VecStorer::slice_iter`, `src/span.rs:226-231`: an `IteratorBySpan` over the
group. -/
def sliceIter (v : VecStorer) (id : Nat) : Option (Cursor Span) := (v.spans id).map Cursor.new

/-- Result of a call that mutates a storer and may use a context at offset
`off`: what it returned, the storer and the offset afterwards, or a panic. -/
inductive Ret where
  | unit                       -- `&mut Self`
  | span (s : Span)            -- `Ok(span)` of `try_cap`
  | err (e : Error)            -- `Err(..)` of `try_cap`
  deriving DecidableEq, Repr

/-- The mutating calls. -/
inductive Op (ι β : Type) where
  | add (id : Nat) (s : Span)
  | clr (id : Nat)
  | reset
  | cap (id : Nat) (p : Pat ι β)

/-- One mutating call on the storer, the context (data `d`, policy `pol`) being
at offset `o`.  Outer `none`: the match does not terminate within the fuel `n`;
inner `none`: panic.  `try_cap` is `src/span.rs:279-288`: match first, then add. -/
def call (G : Rules ι β) (pol : Option (Pat ι β)) (d : List ι) (n : Nat) (v : VecStorer) (o : Nat) :
    Op ι β → Option (Option (Ret × VecStorer × Nat))
  | .add id s => some ((v.addSpan id s).map fun v' => (.unit, v', o))
  | .clr id => some (some (.unit, v.clrSpan id, o))
  | .reset => some (some (.unit, v.reset, o))
  | .cap id p => match tryMat G n pol d p o with
    | none => none
    | some .panic => some none
    | some (.err e o') => some (some (.err e, v, o'))
    | some (.ok s o') => some ((v.addSpan id s).map fun v' => (.span s, v', o'))

end VecStorer

/-! ## `ArrayStorer` -/

/-- `src/span.rs:303-306` `ArrayStorer<M, N>`: `M` rows of `N` cells (the sizes
are those of the list; `ArrayStorer.Sized` in the specification). -/
structure ArrayStorer where
  rows : List (List (Option Span))
  deriving DecidableEq, Repr

namespace ArrayStorer

/-- `ArrayStorer::new`, `src/span.rs:317-321`. -/
def new (m n : Nat) : ArrayStorer := ⟨List.replicate m (List.replicate n none)⟩

/-- `ArrayStorer::len`, `src/span.rs:329-331`. -/
def len (v : ArrayStorer) : Nat := v.rows.length

/-- `ArrayStorer::reset`, `src/span.rs:340-347`. -/
def reset (v : ArrayStorer) : ArrayStorer := ⟨v.rows.map fun r => r.map fun _ => none⟩

/-- `ArrayStorer::contain`, `src/span.rs:355-360`. -/
def contain (v : ArrayStorer) (id : Nat) : Bool :=
  ((v.rows[id]?).map fun r => r.any (·.isSome)).getD false

/-- `ArrayStorer::set_span`, `src/span.rs:366-369`; `none` is the indexing
panic (either index). -/
def setSpan (v : ArrayStorer) (id index : Nat) (s : Span) : Option ArrayStorer :=
  match v.rows[id]? with
  | none => none
  | some r => if index < r.length then some ⟨v.rows.set id (r.set index (some s))⟩ else none

/-- `ArrayStorer::clr_span`, `src/span.rs:374-381`. -/
def clrSpan (v : ArrayStorer) (id : Nat) : ArrayStorer :=
  match v.rows[id]? with
  | none => v
  | some r => ⟨v.rows.set id (r.map fun _ => none)⟩

/-- `ArrayStorer::span`, `src/span.rs:388-392`. -/
def span (v : ArrayStorer) (id index : Nat) : Option Span :=
  (v.rows[id]?).bind fun r => (r[index]?).bind (·)

/-- `ArrayStorer::spans`, `src/span.rs:399-407`: `v.is_empty()` is about the
row's length `N`, not about its cells being set. -/
def spans (v : ArrayStorer) (id : Nat) : Option (List (Option Span)) :=
  (v.rows[id]?).bind fun r => if r.isEmpty then none else some r

/-- `ArrayStorer::spans_iter`, `src/span.rs:412-414`. -/
def spansIter (v : ArrayStorer) (id : Nat) : Option (Cursor (Option Span)) :=
  (v.spans id).map Cursor.new

/-- `ArrayStorer::slice`, `src/span.rs:427-439`. -/
def slice (v : ArrayStorer) (d : List ι) (id index : Nat) : Option (List ι) :=
  (v.span id index).bind (getBySpan d)

/-- `ArrayStorer::slice_iter`, `src/span.rs:444-453`. -/
def sliceIter (v : ArrayStorer) (id : Nat) : Option (Cursor (Option Span)) :=
  (v.spans id).map Cursor.new

/-- The mutating calls. -/
inductive Op (ι β : Type) where
  | set (id index : Nat) (s : Span)
  | clr (id : Nat)
  | reset
  | cap (id index : Nat) (p : Pat ι β)

/-- One mutating call, as `VecStorer.call`; `try_cap` is `src/span.rs:505-520`. -/
def call (G : Rules ι β) (pol : Option (Pat ι β)) (d : List ι) (n : Nat) (v : ArrayStorer)
    (o : Nat) : Op ι β → Option (Option (VecStorer.Ret × ArrayStorer × Nat))
  | .set id i s => some ((v.setSpan id i s).map fun v' => (.unit, v', o))
  | .clr id => some (some (.unit, v.clrSpan id, o))
  | .reset => some (some (.unit, v.reset, o))
  | .cap id i p => match tryMat G n pol d p o with
    | none => none
    | some .panic => some none
    | some (.err e o') => some (some (.err e, v, o'))
    | some (.ok s o') => some ((v.setSpan id i s).map fun v' => (.span s, v', o'))

end ArrayStorer

end Neure
