/-!
# Input data, spans, errors and results

Models `src/err.rs`, `src/span.rs` (`Span`) and the data-access part of
`src/ctx/regex.rs`.
-/

namespace Neure

/-- `src/err.rs:5-79` `Error`.  `Uid(usize)` carries a user supplied id; the
other variants carry nothing. -/
inductive Error where
  | fail | assertFalse | assertTrue | consume | slice | literal | anchorEnd | anchorStart
  | mutex | option | fromStr | tryInto | selectEq | selectNeq | bounded | sepCollect | collect
  | separate | separate2 | repeat_ | repeat2 | times | between | many1 | once | neureThen
  | outOfBound | array | vector | pairArray | pairVector | pairSlice | utf8Error
  | fromLeBytes | fromBeBytes | fromNeBytes | uid (n : Nat)
  deriving DecidableEq, Repr

/-- `src/span.rs:18-22` `Span`. -/
structure Span where
  beg : Nat
  len : Nat
  deriving DecidableEq, Repr

/-- End position of a span (not a function of the crate; used in statements). -/
def Span.stop (s : Span) : Nat := s.beg + s.len

/-- `src/span.rs:50-54` `Span::add_assign`.  `none` is the panic of the
`debug_assert!` on line 51 or of the `usize` subtraction on line 52 (build with
debug assertions / overflow checks). -/
def Span.addAssign (s o : Span) : Option Span :=
  if s.beg ≤ o.beg ∧ s.beg + s.len ≤ o.len + o.beg then
    some { beg := s.beg, len := s.len + (o.len + o.beg - (s.beg + s.len)) }
  else none

/-- Outcome of a Rust computation returning `Result` that may also panic.
(No counterpart in the crate: representation of Rust control flow.) -/
inductive Out (α : Type) where
  | ok (a : α)
  | err (e : Error)
  | panic
  deriving DecidableEq, Repr

/-- Outcome of a Rust computation taking `&mut ctx`: additionally the offset
the context is left with. -/
inductive Res (α : Type) where
  | ok (a : α) (off : Nat)
  | err (e : Error) (off : Nat)
  | panic
  deriving DecidableEq, Repr

/-- An item type of an input: `u8` (for `[u8]`) or `char` (for `str`).
`size` is the number of bytes (1, resp. `char::len_utf8`), `key` the value by
which `PartialOrd` compares.  `strict` says what `orig_at` does with an offset
beyond the end: `[u8]` uses the default of `src/ctx.rs:74-76`, whose
`len - offset` panics (`true`); `str` overrides it, `src/ctx/regex.rs:419-421`
(`false`). -/
class Item (ι : Type) where
  deq : DecidableEq ι
  size : ι → Nat
  size_pos : ∀ x, 0 < size x
  key : ι → Nat
  strict : Bool

instance {ι : Type} [Item ι] : DecidableEq ι := Item.deq

/-- `[u8]` contexts, `src/ctx/regex.rs:338-384`. -/
instance : Item UInt8 where
  deq := inferInstance
  size _ := 1
  size_pos _ := Nat.one_pos
  key x := x.toNat
  strict := true

/-- `str` contexts, `src/ctx/regex.rs:386-436`. -/
instance : Item Char where
  deq := inferInstance
  size c := c.utf8Size
  size_pos c := Char.utf8Size_pos c
  key c := c.toNat
  strict := false

variable {ι : Type} [Item ι]

/-- Length in bytes: `src/ctx/regex.rs:345-347, 393-395` `Context::len`. -/
def blen : List ι → Nat
  | [] => 0
  | x :: l => Item.size x + blen l

/-- `dat.get(n..)` of std, as used on `src/ctx/regex.rs:419-421`: the suffix
from byte offset `n`, `none` if `n` is not an item boundary. -/
def dropB : List ι → Nat → Option (List ι)
  | l, 0 => some l
  | [], _ + 1 => none
  | x :: l, n + 1 => if Item.size x ≤ n + 1 then dropB l (n + 1 - Item.size x) else none

/-- The first `n` bytes as items (`dat.get(..n)` of std), `none` if `n` is not
a boundary. -/
def takeB : List ι → Nat → Option (List ι)
  | _, 0 => some []
  | [], _ + 1 => none
  | x :: l, n + 1 =>
    if Item.size x ≤ n + 1 then (takeB l (n + 1 - Item.size x)).map (x :: ·) else none

/-- `Context::orig_at`: `src/ctx.rs:74-76` for `[u8]` (panics past the end),
`src/ctx/regex.rs:419-421` for `str`. -/
def origAt (d : List ι) (o : Nat) : Out (List ι) :=
  if Item.strict ι && decide (blen d < o) then .panic
  else match dropB d o with
    | some l => .ok l
    | none => .err .outOfBound

/-- `Context::orig_sub`: `src/ctx/regex.rs:375-379, 427-431`. -/
def origSub (d : List ι) (o len : Nat) : Out (List ι) :=
  match dropB d o with
  | none => .err .outOfBound
  | some l => match takeB l len with
    | none => .err .outOfBound
    | some r => .ok r

/-- `char_indices` / `BytesIndices` (`src/iter/byte.rs:28-37`): items paired
with their byte offset, starting from `i`. -/
def indices : Nat → List ι → List (Nat × ι)
  | _, [] => []
  | i, x :: l => (i, x) :: indices (i + Item.size x) l

/-- `Context::peek` (`src/ctx.rs:61-63` with `peek_at`,
`src/ctx/regex.rs:371-373, 423-425`). -/
def peek (d : List ι) (o : Nat) : Out (List (Nat × ι)) :=
  match origAt d o with
  | .ok l => .ok (indices 0 l)
  | .err e => .err e
  | .panic => .panic

/-- `src/neu.rs:708-711` `calc_length`; `none` is the subtraction panic. -/
def calcLength (beg stop : Option Nat) (remaining : Nat) : Option Nat :=
  match beg with
  | none => some 0
  | some v => if v ≤ stop.getD remaining then some (stop.getD remaining - v) else none

/-- `src/ctx.rs:679-684` `new_span_inc`: the span of length `len` at the
current offset, advancing the offset by `len`. -/
def newSpanInc (o len : Nat) : Res Span := .ok ⟨o, len⟩ (o + len)

end Neure
