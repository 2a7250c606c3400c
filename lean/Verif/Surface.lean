import Verif.Api
import Verif.Mapper
import Verif.Range
/-!
# The builder methods: `src/ctor.rs:297-368`, `src/regex.rs:461-780`

What a user writes is a chain of method calls.  Each method makes a struct; the
structs that can be adjusted afterwards (`at_least`, `with_skip`, …) are records
here, with the pattern (`Pat`) they behave as; for the others the method yields the
pattern directly.  `self` is the first argument.
-/

namespace Neure.Surface

variable {ι β : Type} [Item ι]

/-! ## Methods of `CtorOps` without adjustable parts -/

/-- `p.try_map(f)`, `src/ctor.rs:370-372`: `Map::new(self, func)`. -/
def tryMap (self : Pat ι β) (f : Val β → Out (Val β)) : Pat ι β := .map self f

/-- `p.map(f)`, `src/ctor.rs:299-301`: `self.try_map(mapper(f))`, where `mapper`
(`src/map.rs:44-46`) makes a `FuncMapper`. -/
def map (self : Pat ι β) (f : Val β → Val β) : Pat ι β := tryMap self (funcMapper f)

/-- `p.pat()`, `src/ctor.rs:396-398`. -/
def pat (self : Pat ι β) : Pat ι β := .pat self

/-- `p.opt()`, `src/ctor.rs:420-422`. -/
def opt (self : Pat ι β) : Pat ι β := .opt self

/-- `p.enclose(open, close)`, `src/ctor.rs:445-447`: `Enclose::new(self, open, close)`,
`src/ctor/enclose.rs:160-167`. -/
def enclose (self open_ close : Pat ι β) : Pat ι β := .enclose open_ self close

/-- `p.sep_once(sep, right)`, `src/ctor.rs:508-510`: `SepOnce::new(self, sep, right)`,
`src/ctor/sep.rs:151-158`. -/
def sepOnce (self sep right : Pat ι β) : Pat ι β := .sepOnce self sep right

/-- `p.or(q)`, `src/ctor.rs:579-581`: `Or::new(self, pat)`, `src/ctor/or.rs:170-176`. -/
def or (self q : Pat ι β) : Pat ι β := .or self q

/-- `p.longest(q)`, `src/ctor.rs:606-608`, `src/ctor/longest.rs:153-159`. -/
def longest (self q : Pat ι β) : Pat ι β := .longest self q

/-- `p.then(q)`, `src/ctor.rs:632-634`, `src/ctor/then.rs:163-169`. -/
def then_ (self q : Pat ι β) : Pat ι β := .thn self q

/-- `p.if_then(test, q)`, `src/ctor.rs:672-674`: `IfThen::new(self, test, then)`,
`src/ctor/then.rs:383-390`. -/
def ifThen (self test q : Pat ι β) : Pat ι β := .ifThen self test q

/-- `p.repeat2::<M, N>()`, `src/ctor.rs:700-702`. -/
def repeat2 (self : Pat ι β) (m n : Nat) : Pat ι β := .rep2 self m n

/-- `p.if_else(test, other)`, `src/ctor.rs:752-757`: `Branch::new(test, self, other)`,
`src/ctor/branch.rs:163-170`; also `regex::branch(test, p, other)`, `:268-276`. -/
def ifElse (self : Pat ι β) (test : List ι → Nat → Out Bool) (other : Pat ι β) : Pat ι β :=
  .branch test self other

/-- `p.suffix(q)`, `src/ctor.rs:783-785`: `Suffix::new(self, suffix)`,
`src/ctor/affix.rs:151-157`. -/
def suffix (self q : Pat ι β) : Pat ι β := .suf self q

/-- `p.prefix(q)`, `src/ctor.rs:821-823`: `Prefix::new(self, prefix)`,
`src/ctor/affix.rs:360-366`. -/
def prefix_ (self q : Pat ι β) : Pat ι β := .pre q self

/-- `regex::assert(p, value)`, `src/regex/assert.rs:125-127`. -/
def assert (p : Pat ι β) (value : Bool) : Pat ι β := .assert p value

/-- `regex::not(p)`, `src/regex/assert.rs:145-147`: `Assert::new(pat, false)`; also `!p`
(`impl_not_for_regex!`, `src/regex.rs:860-885`, and the hand-written `Not` impls). -/
def not (p : Pat ι β) : Pat ι β := .assert p false

/-- `regex::peek(p)`, `src/regex/assert.rs:165-167`: `Assert::new(pat, true)`. -/
def peek (p : Pat ι β) : Pat ι β := .assert p true

/-! ## `_0`, `_1`, `_eq` -/

/-- A mapper of pairs applied to the pair a pattern constructs; the types rule out
any other value. -/
def onPair (f : Val β × Val β → Out (Val β)) : Val β → Out (Val β)
  | .pair a b => f (a, b)
  | _ => .panic

/-- `p._0()` of `Then`, `IfThen`, `SepOnce` and `DynamicCtorThenBuilder`:
`Map::new(self, Select0)`, `src/ctor/then.rs:197-199, 431-433`,
`src/ctor/sep.rs:199-201`, `src/ctor/dthen.rs:185-187`. -/
def _0 (self : Pat ι β) : Pat ι β := tryMap self (onPair select0)

/-- `p._1()`, `src/ctor/then.rs:201-203, 435-437`, `src/ctor/sep.rs:203-205`,
`src/ctor/dthen.rs:189-191`. -/
def _1 (self : Pat ι β) : Pat ι β := tryMap self (onPair select1)

/-- `p._eq()`, `src/ctor/then.rs:205-207, 439-441`, `src/ctor/sep.rs:207-209`,
`src/ctor/dthen.rs:193-195`; `eq` is the `PartialEq` of the two types. -/
def _eq (eq : Val β → Val β → Bool) (self : Pat ι β) : Pat ι β :=
  tryMap self (onPair fun v => match selectEq eq v with
    | .ok (a, b) => .ok (.pair a b)
    | .err e => .err e
    | .panic => .panic)

/-! ## Separated lists -/

/-- `Separate`, `src/ctor/sep.rs:349-356`. -/
structure Separate (ι β : Type) where
  pat : Pat ι β
  sep : Pat ι β
  skip : Bool
  capacity : Nat
  min : Nat

namespace Separate

/-- `p.sep(s)`, `src/ctor.rs:470-472`: `Separate::new`, `src/ctor/sep.rs:417-426`. -/
def new (pat sep : Pat ι β) : Separate ι β := ⟨pat, sep, true, 0, 1⟩

/-- `with_skip`, `src/ctor/sep.rs:481-484` (`set_skip`, `:466-469`). -/
def withSkip (x : Separate ι β) (skip : Bool) : Separate ι β := { x with skip }

/-- `with_capacity`, `src/ctor/sep.rs:486-489` (`set_capacity`, `:471-474`). -/
def withCapacity (x : Separate ι β) (capacity : Nat) : Separate ι β := { x with capacity }

/-- `at_least`, `src/ctor/sep.rs:491-494` (`set_min`, `:476-479`). -/
def atLeast (x : Separate ι β) (min : Nat) : Separate ι β := { x with min }

/-- The pattern it behaves as, apart from the allocation. -/
def toPat (x : Separate ι β) : Pat ι β := .sep x.pat x.sep x.skip x.min

end Separate

/-- `SepCollect`, `src/ctor/sep.rs:1020-1028`. -/
structure SepCollect (ι β : Type) where
  pat : Pat ι β
  sep : Pat ι β
  skip : Bool
  min : Nat

namespace SepCollect

/-- `p.sep_collect(s)`, `src/ctor.rs:545-547`; `src/ctor/sep.rs:1020-1028`. -/
def new (pat sep : Pat ι β) : SepCollect ι β := ⟨pat, sep, true, 1⟩

/-- `with_skip`, `src/ctor/sep.rs:1074-1077` (`set_skip`, `:1064-1067`). -/
def withSkip (x : SepCollect ι β) (skip : Bool) : SepCollect ι β := { x with skip }

/-- `at_least`, `src/ctor/sep.rs:1079-1082` (`set_min`, `:1069-1072`). -/
def atLeast (x : SepCollect ι β) (min : Nat) : SepCollect ι β := { x with min }

/-- The pattern it behaves as. -/
def toPat (x : SepCollect ι β) : Pat ι β := .sepCollect x.pat x.sep x.skip x.min

end SepCollect

/-- `Separate2<M, N>`, `src/ctor/sep.rs:726-733`. -/
structure Separate2 (ι β : Type) where
  pat : Pat ι β
  sep : Pat ι β
  skip : Bool
  m : Nat
  n : Nat

namespace Separate2

/-- `p.sep2::<_, M, N>(s)`, `src/ctor.rs:474-476`; `src/ctor/sep.rs:726-733`. -/
def new (pat sep : Pat ι β) (m n : Nat) : Separate2 ι β := ⟨pat, sep, true, m, n⟩

/-- `with_skip`, `src/ctor/sep.rs:770-773` (`set_skip`, `:765-768`). -/
def withSkip (x : Separate2 ι β) (skip : Bool) : Separate2 ι β := { x with skip }

/-- The pattern it behaves as. -/
def toPat (x : Separate2 ι β) : Pat ι β := .sep2 x.pat x.sep x.skip x.m x.n

end Separate2

/-! ## `collect` and `repeat` -/

/-- `Collect`, `src/ctor/collect.rs:122-128`. -/
structure Collect (ι β : Type) where
  pat : Pat ι β
  min : Nat

namespace Collect

/-- `p.collect()`, `src/ctor.rs:726-728`; `src/ctor/collect.rs:122-128`. -/
def new (pat : Pat ι β) : Collect ι β := ⟨pat, 1⟩

/-- `at_least`, `src/ctor/collect.rs:152-155` (`set_min`, `:147-150`). -/
def atLeast (x : Collect ι β) (min : Nat) : Collect ι β := { x with min }

/-- The pattern it behaves as. -/
def toPat (x : Collect ι β) : Pat ι β := .collect x.pat x.min

end Collect

/-- `Repeat`, `src/ctor/repeat.rs:78-83`. -/
structure Repeat (ι β : Type) where
  pat : Pat ι β
  range : CRange
  capacity : Nat

namespace Repeat

/-- `Repeat::guess_capacity`, `src/ctor/repeat.rs:143-150`. -/
def guessCapacity (range : CRange) (val : Nat) : Nat :=
  let start := match range.lo with
    | .incl v => v
    | .excl v => v
    | .unb => val
  Nat.max start val

/-- `p.repeat(range)`, `src/ctor.rs:696-698`; `src/ctor/repeat.rs:131-141`. -/
def new (pat : Pat ι β) (range : RangeExpr) : Repeat ι β :=
  ⟨pat, range.toCRange, guessCapacity range.toCRange 0⟩

/-- `with_range`, `src/ctor/repeat.rs:188-191` (`set_range`, `:173-176`): the capacity
stays. -/
def withRange (x : Repeat ι β) (range : RangeExpr) : Repeat ι β := { x with range := range.toCRange }

/-- `with_capacity`, `src/ctor/repeat.rs:193-196` (`set_capacity`, `:178-181`). -/
def withCapacity (x : Repeat ι β) (capacity : Nat) : Repeat ι β := { x with capacity }

/-- `with_pat`, `src/ctor/repeat.rs:183-186` (`set_pat`, `:168-171`). -/
def withPat (x : Repeat ι β) (pat : Pat ι β) : Repeat ι β := { x with pat }

/-- The pattern it behaves as, apart from the allocation. -/
def toPat (x : Repeat ι β) : Pat ι β := .rep x.pat x.range

end Repeat

/-! ## Room for the values

`Vec::with_capacity(n)` panics ("capacity overflow") if `n` values take more than
`isize::MAX` bytes; `room` is the largest `n` for which they do not.  (An allocation
within this limit that the system refuses aborts the program; that is not modelled.) -/

/-- `Separate::construct`, `src/ctor/sep.rs:505-537`, with the allocation on `:507`. -/
def Separate.construct (x : Separate ι β) (room : Nat) {σ : Type} (G : Rules ι β) (H : Handler ι β σ)
    (fuel : Nat) (pol : Option (Pat ι β)) (d : List ι) (st : σ) (o : Nat) : Option (CRes σ (Val β)) :=
  if Nat.max x.capacity x.min ≤ room then con G H fuel pol d x.toPat st o else some .panic

/-- `Repeat::construct`, `src/ctor/repeat.rs:214-242`, with the allocation on `:217`. -/
def Repeat.construct (x : Repeat ι β) (room : Nat) {σ : Type} (G : Rules ι β) (H : Handler ι β σ)
    (fuel : Nat) (pol : Option (Pat ι β)) (d : List ι) (st : σ) (o : Nat) : Option (CRes σ (Val β)) :=
  if x.capacity ≤ room then con G H fuel pol d x.toPat st o else some .panic

/-! ## Lists of alternatives -/

/-- Which container: `Array`, `Slice`, `Vector` and their pair variants. -/
inductive Holder where
  | array | slice | vector | pairArray | pairSlice | pairVector
  deriving DecidableEq, Repr

/-- The error of a container none of whose alternatives matches:
`src/ctor/array.rs:140, 266`, `src/ctor/slice.rs:151, 327`, `src/ctor/vec.rs:144, 315`. -/
def Holder.error : Holder → Error
  | .array => .array
  | .slice => .slice
  | .vector => .vector
  | .pairArray => .pairArray
  | .pairSlice => .pairSlice
  | .pairVector => .pairVector

/-- `Array`, … : `src/ctor/array.rs:80-83, 205-208`, `src/ctor/slice.rs`, `src/ctor/vec.rs`. -/
structure Container (ι β : Type) where
  holder : Holder
  inner : List (Pat ι β × Option (Val β))
  longest : Bool

namespace Container

/-- `regex::array`, `slice`, `vector`: `src/regex.rs:461-463, 596-598, 634-636`. -/
def plain (h : Holder) (l : List (Pat ι β)) : Container ι β := ⟨h, l.map fun p => (p, none), false⟩

/-- `regex::array_ltm`, `slice_ltm`, `vector_ltm`: `src/regex.rs:487-489, 615-617, 654-656`. -/
def plainLtm (h : Holder) (l : List (Pat ι β)) : Container ι β := ⟨h, l.map fun p => (p, none), true⟩

/-- `regex::pair_array`, `pair_slice`, `pair_vector`: `src/regex.rs:530-534,
683-685, 740-742`. -/
def pairs (h : Holder) (l : List (Pat ι β × Val β)) : Container ι β :=
  ⟨h, l.map fun x => (x.1, some x.2), false⟩

/-- `regex::pair_array_ltm`, `pair_slice_ltm`, `pair_vector_ltm`: `src/regex.rs:576-580,
710-712, 769-771`. -/
def pairsLtm (h : Holder) (l : List (Pat ι β × Val β)) : Container ι β :=
  ⟨h, l.map fun x => (x.1, some x.2), true⟩

/-- `with_longest`, `src/ctor/array.rs:107-110` (`set_longest`, `:102-105`), and the
same in `slice.rs` and `vec.rs`. -/
def withLongest (x : Container ι β) (longest : Bool) : Container ι β := { x with longest }

/-- The pattern it behaves as: `try_parse` and `construct` choose between
`handler_ltm` and `handler` by the flag, `src/ctor/array.rs:134-151, 160-174, 260-277,
286-300`, `src/ctor/slice.rs:145-186, 321-362`, `src/ctor/vec.rs:138-179, 309-350`. -/
def toPat (x : Container ι β) : Pat ι β :=
  if x.longest then .ltm x.holder.error x.inner else .choice x.holder.error x.inner

end Container

end Neure.Surface
