import Verif.Data
/-!
# `CRange`: `src/neu/range.rs`
-/

namespace Neure

/-- `core::ops::Bound`. -/
inductive Bound where
  | incl (n : Nat) | excl (n : Nat) | unb
  deriving DecidableEq, Repr

/-- `usize::MAX` on a 64-bit target. -/
def usizeMax : Nat := 2 ^ 64 - 1

/-- `src/neu/range.rs:11-13` `CRange<usize>` (also used, with item keys, for
`CRange<char>`/`CRange<u8>`). -/
structure CRange where
  lo : Bound
  hi : Bound
  deriving DecidableEq, Repr

/-- `RangeBounds::contains` (std's provided method), used through
`src/neu/range.rs:96-104`. -/
def CRange.contains (r : CRange) (x : Nat) : Bool :=
  (match r.lo with | .incl a => decide (a ≤ x) | .excl a => decide (a < x) | .unb => true) &&
  (match r.hi with | .incl b => decide (x ≤ b) | .excl b => decide (x < b) | .unb => true)

/-- `src/neu/range.rs:75-85` `CRange::<usize>::is_empty`. -/
def CRange.isEmpty (r : CRange) : Bool :=
  !(match r.lo, r.hi with
    | .unb, _ => true
    | _, .unb => true
    | .incl a, .excl b => decide (b > a)
    | .excl a, .incl b => decide (b > a)
    | .incl a, .incl b => decide (b ≥ a)
    | .excl a, .excl b => decide (a < usizeMax - 1) && decide (b > a + 1))

/-- The Rust range expressions that convert into `CRange`. -/
inductive RangeExpr where
  | range (a b : Nat)        -- a..b
  | rangeFrom (a : Nat)      -- a..
  | rangeFull                -- ..
  | rangeIncl (a b : Nat)    -- a..=b
  | rangeTo (b : Nat)        -- ..b
  | rangeToIncl (b : Nat)    -- ..=b
  | bounds (lo hi : Bound)   -- (Bound, Bound)
  | int (v : Int)            -- any primitive integer, cast with `as usize`
  deriving DecidableEq, Repr

/-- `v as usize` for a (possibly negative) primitive integer: reduction modulo
2^64 (`src/neu/range.rs:119, 127`). -/
def asUsize (v : Int) : Nat := (v % (2 ^ 64 : Int)).toNat

/-- The `From` implementations `src/neu/range.rs:115-225`. -/
def RangeExpr.toCRange : RangeExpr → CRange
  | .range a b => ⟨.incl a, .excl b⟩
  | .rangeFrom a => ⟨.incl a, .unb⟩
  | .rangeFull => ⟨.unb, .unb⟩
  | .rangeIncl a b => ⟨.incl a, .incl b⟩
  | .rangeTo b => ⟨.unb, .excl b⟩
  | .rangeToIncl b => ⟨.unb, .incl b⟩
  | .bounds lo hi => ⟨lo, hi⟩
  | .int v => ⟨.incl (asUsize v), .incl (asUsize v)⟩

/-- "May one more repetition be attempted after `cnt` of them?": the end-bound
check shared by `Times` (`src/neu/times.rs:438-447`) and `Repeat`
(`src/ctor/repeat.rs:198-204`). -/
def CRange.more (r : CRange) (cnt : Nat) : Bool :=
  match r.hi with
  | .incl m => decide (cnt < m)
  | .excl m => decide (cnt < m - 1)      -- `saturating_sub(1)`
  | .unb => true

/-- Minimal input length required by `Times` before scanning,
`src/neu/times.rs:449-453`. -/
def CRange.needed (r : CRange) (minLen : Nat) : Nat :=
  match r.lo with
  | .incl m => m * minLen
  | .excl m => (m - 1) * minLen          -- `saturating_sub(1)`
  | .unb => 0

end Neure
