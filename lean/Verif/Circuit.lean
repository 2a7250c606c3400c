import Verif.Ctor
import Verif.Classes
/-!
# The circuit example of `skip_ascii_whitespace`

`src/ctx/regex.rs:209-315`: instructions such as `x AND y -> d`, read in a context
that skips ASCII white space.
-/

namespace Neure.Circuit

/-- `struct Dat`, `src/ctx/regex.rs:220-225`. -/
structure Dat where
  span : Span
  dat : List Char
  deriving DecidableEq, Repr

/-- `enum Op`, `src/ctx/regex.rs:227-232`. -/
inductive Op where
  | sig (d : Dat)
  | wire (d : Dat)
  deriving DecidableEq, Repr

/-- `enum Inst`, `src/ctx/regex.rs:234-247`. -/
inductive Inst where
  | store (a : Op)
  | and (a b : Op)
  | or (a b : Op)
  | lshift (a b : Op)
  | rshift (a b : Op)
  | not (a : Op)
  deriving DecidableEq, Repr

/-- The values of the grammar. -/
inductive CVal where
  | dat (d : Dat)
  | op (o : Op)
  | inst (i : Inst)
  deriving DecidableEq, Repr

/-- The handler given to `ctor_with`, `src/ctx/regex.rs:279-284`; `span.orig(ctx)` is
`src/span.rs:61-66`. -/
def datH : Handler Char CVal Unit := fun d _ s st =>
  (match origSub d s.beg s.len with
    | .ok l => .ok (.dat ⟨s, l⟩)
    | .err e => .err e
    | .panic => .panic, st)

/-- `Op::Sig`, `Op::Wire` as mappers (`src/ctx/regex.rs:262, 264`).  The types rule out
any other argument. -/
def mkOp (f : Dat → Op) : Val CVal → Out (Val CVal)
  | .base (.dat d) => .ok (.base (.op (f d)))
  | _ => .err (.uid 0)

/-- `Inst::And` and the like as mappers (`src/ctx/regex.rs:265-268`).  The types rule
out any other argument. -/
def mkBin (f : Op → Op → Inst) : Val CVal → Out (Val CVal)
  | .pair (.base (.op a)) (.base (.op b)) => .ok (.base (.inst (f a b)))
  | _ => .err (.uid 0)

/-- `Inst::Not`, `Inst::Store` as mappers (`src/ctx/regex.rs:269-270`). -/
def mkUn (f : Op → Inst) : Val CVal → Out (Val CVal)
  | .base (.op a) => .ok (.base (.inst (f a)))
  | _ => .err (.uid 0)

/-- `sig`, `src/ctx/regex.rs:262`. -/
def sig : Pat Char CVal := .map (.many1 (Unit.digit 10) .empty) (mkOp .sig)

/-- `wire`, `src/ctx/regex.rs:263`. -/
def wire : Pat Char CVal := .many1 Unit.asciiLowercase .empty

/-- `op`, `src/ctx/regex.rs:264`. -/
def op : Pat Char CVal := .or sig (.map wire (mkOp .wire))

/-- `op.sep_once(k, op).map(f)`, `src/ctx/regex.rs:265-268`. -/
def bin (k : String) (f : Op → Op → Inst) : Pat Char CVal := .map (.sepOnce op (.lit k.toList) op) (mkBin f)

/-- `src`, `src/ctx/regex.rs:269-273` (`into_box` changes nothing, C73). -/
def src : Pat Char CVal :=
  .or (bin "AND" .and) (.or (bin "OR" .or) (.or (bin "LSHIFT" .lshift) (.or (bin "RSHIFT" .rshift)
    (.or (.map (.pre (.lit "NOT".toList) op) (mkUn .not)) (.map sig (mkUn .store))))))

/-- `parser`, `src/ctx/regex.rs:274`; the default of `collect` is at least one
(`src/ctor/collect.rs:125`). -/
def parser : Pat Char CVal := .collect (.sepOnce src (.lit "->".toList) wire) 1

/-- What `skip_ascii_whitespace` skips, `src/ctx/regex.rs:318-324`. -/
def skipped : Pat Char CVal := .many0 Unit.asciiWhitespace .empty

end Neure.Circuit
