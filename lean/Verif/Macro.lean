import Verif.Classes
import Verif.Syntax
/-!
# The `neu!` and `regex!` macros: `src/macro.rs`

The rules of the two macros as functions on token trees, tried in the order in
which they are written.  `none` stands for an expansion that does not compile or
whose `unwrap` panics.

Simplifications: character items only (no `b'x'` literals); an identifier is a
single character, which is what `charize!` accepts; the expressions inside `(…)`
are given by the units they evaluate to; tokens left over after the quantifier
are taken to be a compile error.
-/

namespace Neure

/-- Token trees that occur in the rules of `src/macro.rs:97-266`. -/
inductive Tok where
  /-- `^ . * ? + - ,` -/
  | punct (c : Char)
  /-- an identifier of one character -/
  | ident (c : Char)
  /-- a character literal -/
  | lit (c : Char)
  /-- an integer literal -/
  | num (n : Nat)
  | bracket (ts : List Tok)
  | brace (ts : List Tok)
  /-- `(e1, …, en)` -/
  | paren (es : List (Neu Char))

namespace Macro

/-- `$($l:literal - $r:literal)+` -/
def litRanges : List Tok → Option (List (Char × Char))
  | [.lit l, .punct '-', .lit r] => some [(l, r)]
  | .lit l :: .punct '-' :: .lit r :: ts => (litRanges ts).map ((l, r) :: ·)
  | _ => none

/-- `$($l:ident - $r:ident)+` -/
def identRanges : List Tok → Option (List (Char × Char))
  | [.ident l, .punct '-', .ident r] => some [(l, r)]
  | .ident l :: .punct '-' :: .ident r :: ts => (identRanges ts).map ((l, r) :: ·)
  | _ => none

/-- `$($ch:literal)+` -/
def lits : List Tok → Option (List Char)
  | [.lit c] => some [c]
  | .lit c :: ts => (lits ts).map (c :: ·)
  | _ => none

/-- `$($ch:ident)+` -/
def idents : List Tok → Option (List Char)
  | [.ident c] => some [c]
  | .ident c :: ts => (idents ts).map (c :: ·)
  | _ => none

/-- The transcription `let re = never(); $(let re = re.or(…);)+ re`
(`src/macro.rs:175-179`, `:213-217`, …). -/
def orAll (us : List (Neu Char)) : Neu Char := us.foldl .or .never

/-- `range(l..=r)` (`src/macro.rs:167`). -/
def closed (p : Char × Char) : Neu Char := .range (RangeExpr.rangeIncl p.1.toNat p.2.toNat).toCRange

/-- `range(l..char::from_u32(r as u32 + 1).unwrap())` (`src/macro.rs:170`). -/
def halfOpen (l r : Char) : Option (Neu Char) :=
  if (r.toNat + 1).isValidChar then some (.range (RangeExpr.range l.toNat (r.toNat + 1)).toCRange) else none

/-- A rule `([^ …])`: strips the `^`. -/
def neg (rule : List Tok → Option (Option (Neu Char))) : List Tok → Option (Option (Neu Char))
  | .punct '^' :: ts => (rule ts).map (·.map .not)
  | _ => none

/-- `[$l:literal - $r:literal]` (`src/macro.rs:166-168`). -/
def oneLitRange : List Tok → Option (Option (Neu Char))
  | [.lit l, .punct '-', .lit r] => some (some (closed (l, r)))
  | _ => none

/-- `[$l:ident - $r:ident]` (`src/macro.rs:169-171`). -/
def oneIdentRange : List Tok → Option (Option (Neu Char))
  | [.ident l, .punct '-', .ident r] => some (halfOpen l r)
  | _ => none

/-- The rules for `[…]` in their order, `src/macro.rs:160-246`. -/
def bracketRules : List (List Tok → Option (Option (Neu Char))) :=
  [ neg oneLitRange,                                                      -- 160-162
    neg oneIdentRange,                                                    -- 163-165
    oneLitRange,                                                          -- 166-168
    oneIdentRange,                                                        -- 169-171
    neg fun ts => (litRanges ts).map fun l => some (orAll (l.map closed)),  -- 173-181
    neg fun ts => (identRanges ts).map fun l => some (orAll (l.map closed)),-- 182-190
    fun ts => (litRanges ts).map fun l => some (orAll (l.map closed)),      -- 191-199
    fun ts => (identRanges ts).map fun l => some (orAll (l.map closed)),    -- 200-208
    neg fun ts => (lits ts).map fun l => some (orAll (l.map .equal)),     -- 211-219
    neg fun ts => (idents ts).map fun l => some (orAll (l.map .equal)),   -- 220-228
    fun ts => (lits ts).map fun l => some (orAll (l.map .equal)),         -- 229-237
    fun ts => (idents ts).map fun l => some (orAll (l.map .equal)) ]      -- 238-246

/-- The first rule that matches decides. -/
def bracket (ts : List Tok) : Option (Neu Char) :=
  (bracketRules.findSome? fun rule => rule ts).join

/-- `neu!`, `src/macro.rs:152-266`.  `neu!()` names `$crate::neu::space`, which does
not exist (`:263-265`). -/
def neu : List Tok → Option (Neu Char)
  | [.punct '^'] => some (.not Unit.whitespace)
  | [.punct '.'] => some Unit.wild
  | [.bracket ts] => bracket ts
  | [.paren (e :: es)] => some (orAll (e :: es))
  | [.ident c] => some (.equal c)
  | [.lit c] => some (.equal c)
  | _ => none

variable {β : Type}

/-- The `@q` rules of `regex!`, `src/macro.rs:98-118`; the constructors are
`src/regex.rs:269-395`. -/
def quantified (u : Neu Char) : List Tok → Option (Pat Char β)
  | [.punct '*'] => some (.many0 u .empty)
  | [.punct '?'] => some (.optU u .empty)
  | [.punct '+'] => some (.many1 u .empty)
  | [.brace [.num n]] => some (.between n n u .empty)
  | [.brace [.num n, .punct ',']] => some (.between n usizeMax u .empty)
  | [.brace [.num n, .punct ',', .num m]] => some (.between n m u .empty)
  | [] => some (.once u .empty)
  | _ => none

/-- The `@r` rules of `regex!`, `src/macro.rs:120-149`. -/
def regex : List Tok → Option (Pat Char β)
  | .punct '^' :: res => (neu [.punct '^']).bind (quantified · res)
  | .punct '.' :: res => (neu [.punct '.']).bind (quantified · res)
  | .bracket (t :: ts) :: res => (neu [.bracket (t :: ts)]).bind (quantified · res)
  | .ident c :: res => quantified (.equal c) res
  | .lit c :: res => quantified (.equal c) res
  | .paren (e :: es) :: res => quantified (orAll (e :: es)) res
  | res => quantified Unit.whitespace res

end Macro
end Neure
