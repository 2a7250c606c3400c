import Verif.Match
import Verif.Classes
/-!
# Units with state inside other units (`src/neu/prefix.rs`, `src/neu/op_*.rs`)

`Prefix` remembers how far it is; `or`, `and`, `not` ask their parts in order and stop
early, so what a part remembers depends on what it has been asked.  Here the state is
kept in the unit itself, and asking it returns the unit as it is afterwards
(`Prefix.lean` has a single `Prefix` of stateless parts).
-/

namespace Neure

variable {ι β : Type} [Item ι]

/-- A unit that may contain `Prefix`es. -/
inductive SUnit (ι : Type) where
  /-- a stateless unit -/
  | unit (u : Neu ι)
  /-- `Prefix`, `src/neu/prefix.rs:12-22`, with its two cells -/
  | prefix (p u : SUnit ι) (count : Nat) (value : Bool)
  /-- `Not`, `src/neu/op_not.rs` -/
  | not (a : SUnit ι)
  /-- `And`, `src/neu/op_and.rs` -/
  | and (a b : SUnit ι)
  /-- `Or`, `src/neu/op_or.rs` -/
  | or (a b : SUnit ι)

namespace SUnit

/-- `prefix_cnt(p, n, u)`, `src/neu/prefix.rs:254-260, 76-83`. -/
def prefixCnt (p : SUnit ι) (n : Nat) (u : SUnit ι) : SUnit ι := .prefix p u n true

/-- `prefix(p, u)`, `src/neu/prefix.rs:191-197`. -/
def prefix1 (p u : SUnit ι) : SUnit ι := prefixCnt p 1 u

/-- `is_match`: `src/neu/prefix.rs:120-140`, `src/neu/op_not.rs:105-109`,
`src/neu/op_and.rs:149-153`, `src/neu/op_or.rs:148-152`; the answer and the unit
afterwards. -/
def isMatch : SUnit ι → ι → Bool × SUnit ι
  | .unit u, x => (u.isMatch x, .unit u)
  | .prefix p u count value, x =>
    if value then
      if count = 0 then ((u.isMatch x).1, .prefix p (u.isMatch x).2 count value)
      else ((p.isMatch x).1, .prefix (p.isMatch x).2 u (count - 1) (p.isMatch x).1)
    else (false, .prefix p u count value)
  | .not a, x => (!(a.isMatch x).1, .not (a.isMatch x).2)
  | .and a b, x =>
    if (a.isMatch x).1 then ((b.isMatch x).1, .and (a.isMatch x).2 (b.isMatch x).2)
    else (false, .and (a.isMatch x).2 b)
  | .or a b, x =>
    if (a.isMatch x).1 then (true, .or (a.isMatch x).2 b)
    else ((b.isMatch x).1, .or (a.isMatch x).2 (b.isMatch x).2)

/-- `min_length`: `src/neu/prefix.rs:142-144`, `src/neu/op_not.rs:111-113`,
`src/neu/op_and.rs:155-157`, `src/neu/op_or.rs:154-156`. -/
def minLength : SUnit ι → Nat
  | .unit u => u.minLength
  | .prefix .. => 0
  | .not a => a.minLength
  | .and a b => max a.minLength b.minLength
  | .or a b => min a.minLength b.minLength

/-- The scanning loop of `Many0`/`Many1`/`Times` (`src/neu/opt.rs:400-408`,
`src/neu/once.rs:387-395`, `src/neu/times.rs:457-470`; `scan` in `Match.lean`) with the
empty condition, and the unit afterwards. -/
def scan (more : Nat → Bool) : SUnit ι → Nat → Option Nat → List (Nat × ι) → Scan ι × SUnit ι
  | s, cnt, beg, [] => (⟨cnt, beg, none, []⟩, s)
  | s, cnt, beg, pr :: it =>
    if more cnt then
      if (s.isMatch pr.2).1 then scan more (s.isMatch pr.2).2 (cnt + 1) (beg.or (some pr.1)) it
      else (⟨cnt, beg, some pr.1, it⟩, (s.isMatch pr.2).2)
    else (⟨cnt, beg, none, pr :: it⟩, s)

/-- `u.many1()`, `src/neu/once.rs:379-403`, and the unit afterwards. -/
def many1 (d : List ι) (s : SUnit ι) (o : Nat) : Option (Res Span) × SUnit ι :=
  match peek d o with
  | .panic => (some .panic, s)
  | .err e => (some (.err e o), s)
  | .ok it =>
    (remK d o fun rem =>
      match (scan (fun _ => true) s 0 none it).1.beg with
      | none => some (.err .many1 o)
      | some b => spanK o (calcLength (some b) (scan (fun _ => true) s 0 none it).1.stop rem),
     (scan (fun _ => true) s 0 none it).2)

/-- `u.many0()`, `src/neu/opt.rs:392-416`, and the unit afterwards. -/
def many0 (d : List ι) (s : SUnit ι) (o : Nat) : Option (Res Span) × SUnit ι :=
  match peek d o with
  | .panic => (some .panic, s)
  | .err _ => (remK d o fun _ => some (.ok ⟨o, 0⟩ o), s)
  | .ok it =>
    (remK d o fun rem =>
      match (scan (fun _ => true) s 0 none it).1.beg with
      | none => some (.ok ⟨o, 0⟩ o)
      | some b => spanK o (calcLength (some b) (scan (fun _ => true) s 0 none it).1.stop rem),
     (scan (fun _ => true) s 0 none it).2)

/-- `u.times(r)`, `src/neu/times.rs:430-479`, and the unit afterwards. -/
def times (d : List ι) (r : CRange) (s : SUnit ι) (o : Nat) : Option (Res Span) × SUnit ι :=
  match peek d o with
  | .panic => (some .panic, s)
  | .err e => (some (.err e o), s)
  | .ok it =>
    if o ≤ blen d then
      if blen d - o ≥ r.needed s.minLength then
        (if r.contains (scan r.more s 0 none it).1.cnt then
          spanK o (calcLength (scan r.more s 0 none it).1.beg
            ((scan r.more s 0 none it).1.stop.or ((scan r.more s 0 none it).1.rest.head?.map (·.1))) (blen d - o))
         else some (.err .times o),
         (scan r.more s 0 none it).2)
      else (some (.err .times o), s)
    else (some .panic, s)

end SUnit

/-! ## The example of `neu::prefix` -/

/-- `num` on `src/neu/prefix.rs:174-177`: `prefix('0', oct.or(hex).or(bin))` with
`oct = prefix('o', digit(8))`, `hex = prefix('x', digit(16))`, `bin = prefix('b', digit(2))`. -/
def radixUnit : SUnit Char :=
  .prefix1 (.unit (.item '0'))
    (.or (.or (.prefix1 (.unit (.item 'o')) (.unit (Unit.digit 8))) (.prefix1 (.unit (.item 'x')) (.unit (Unit.digit 16))))
      (.prefix1 (.unit (.item 'b')) (.unit (Unit.digit 2))))

/-- `num.many1().or(dec.many1())`, `src/neu/prefix.rs:178`; `or` is
`src/ctor/or.rs:238-252`. -/
def radixLiteral (d : List Char) (o : Nat) : Option (Res Span) :=
  caseR (SUnit.many1 d radixUnit o).1 (fun s o' => some (.ok s o'))
    (fun _ _ => (SUnit.many1 d (.unit (Unit.digit 10)) o).1)

end Neure
