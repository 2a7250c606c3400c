import Verif.Unit
/-!
# Patterns: one constructor per regex / ctor struct of the crate

In the crate a struct such as `Then` implements both `Regex` (matching,
`try_parse`) and `Ctor` (building values, `construct`).  `Pat` represents the
struct; `Match.lean` models `try_parse`, `Ctor.lean` models `construct`.

User code appears as functions: native patterns, conditions, branch tests,
mappers, dynamic builders.
-/

namespace Neure

/-- Values built by `construct`.  `base` are the values produced by the
handler; the other constructors are the shapes the combinators add: tuples,
`Option`, and `Vec`/arrays (`nil`/`cons`). -/
inductive Val (β : Type) where
  | base (b : β)
  | pair (a b : Val β)
  | none
  | some (a : Val β)
  | nil
  | cons (a l : Val β)
  deriving DecidableEq, Repr

/-- A `Vec` (or array) of values. -/
def Val.list {β : Type} (l : List (Val β)) : Val β := l.foldr .cons .nil

mutual
/-- Conditions of unit patterns, `src/neu/cond.rs`. -/
inductive Cond (ι β : Type) where
  /-- `EmptyCond`, `src/neu/cond.rs:71-73`. -/
  | empty
  /-- a closure, `src/neu/cond.rs:57-61`: sees the context (data and offset) and
  the pair (relative offset, item). -/
  | fn (f : List ι → Nat → Nat × ι → Out Bool)
  /-- `RegexCond`, `src/neu/cond.rs:122-128`. -/
  | regex (p : Pat ι β)

/-- Patterns. -/
inductive Pat (ι β : Type) where
  /-- `regex/empty.rs` and `()` (`src/regex.rs:79-88`). -/
  | empty
  /-- `regex/fail.rs`. -/
  | fail
  /-- `regex/anchor.rs` `start`. -/
  | start
  /-- `regex/anchor.rs` `end`. -/
  | anchorEnd
  /-- `regex/consume.rs` `consume(n)`. -/
  | consume (n : Nat)
  /-- `regex/consume.rs` `consume_all`. -/
  | consumeAll
  /-- `regex/literal.rs`; also strings, byte slices, … used as patterns. -/
  | lit (l : List ι)
  /-- a closure `Fn(&mut C) -> Result<Span, Error>` (`src/regex.rs:68-77`). -/
  | native (f : List ι → Nat → Res Span)
  /-- `neu/once.rs` `Once`. -/
  | once (u : Neu ι) (c : Cond ι β)
  /-- `neu/once.rs` `Many1`. -/
  | many1 (u : Neu ι) (c : Cond ι β)
  /-- `neu/opt.rs` `Opt`. -/
  | optU (u : Neu ι) (c : Cond ι β)
  /-- `neu/opt.rs` `Many0`. -/
  | many0 (u : Neu ι) (c : Cond ι β)
  /-- `neu/times.rs` `Between<M, N>`. -/
  | between (m n : Nat) (u : Neu ι) (c : Cond ι β)
  /-- `neu/times.rs` `Times`. -/
  | times (r : CRange) (u : Neu ι) (c : Cond ι β)
  /-- `neu/then.rs` `NeureThen`. -/
  | thenU (u v : Neu ι) (c : Cond ι β)
  /-- `regex/assert.rs`: `assert(p)` (`value = true`), `not(p)` (`false`). -/
  | assert (p : Pat ι β) (value : Bool)
  /-- `ctor/then.rs` `Then`. -/
  | thn (a b : Pat ι β)
  /-- `ctor/then.rs` `IfThen`. -/
  | ifThen (a t b : Pat ι β)
  /-- `ctor/affix.rs` `Prefix`: prefix first, then the pattern. -/
  | pre (prefix_ p : Pat ι β)
  /-- `ctor/affix.rs` `Suffix`. -/
  | suf (p suffix : Pat ι β)
  /-- `ctor/enclose.rs`. -/
  | enclose (open_ p close : Pat ι β)
  /-- `ctor/sep.rs` `SepOnce`. -/
  | sepOnce (l s r : Pat ι β)
  /-- `ctor/or.rs`. -/
  | or (a b : Pat ι β)
  /-- `ctor/longest.rs` `LongestTokenMatch`. -/
  | longest (a b : Pat ι β)
  /-- `ctor/opt.rs` `OptionPat`. -/
  | opt (p : Pat ι β)
  /-- ordered choices `ctor/{array,vec,slice}.rs` (`longest = false`); for the
  pair variants every alternative carries a value. `e` is the error reported
  when nothing matches. -/
  | choice (e : Error) (items : List (Pat ι β × Option (Val β)))
  /-- the same with `ltm()` (`longest = true`). -/
  | ltm (e : Error) (items : List (Pat ι β × Option (Val β)))
  /-- `ctor/repeat.rs`. -/
  | rep (p : Pat ι β) (r : CRange)
  /-- `ctor/repeat2.rs` `Repeat2<M, N>`. -/
  | rep2 (p : Pat ι β) (m n : Nat)
  /-- `ctor/collect.rs`. -/
  | collect (p : Pat ι β) (min : Nat)
  /-- `ctor/sep.rs` `Separate`. -/
  | sep (p s : Pat ι β) (skip : Bool) (min : Nat)
  /-- `ctor/sep.rs` `Separate2<M, N>`. -/
  | sep2 (p s : Pat ι β) (skip : Bool) (m n : Nat)
  /-- `ctor/sep.rs` `SepCollect`. -/
  | sepCollect (p s : Pat ι β) (skip : Bool) (min : Nat)
  /-- `ctor/branch.rs`: the test gets `&C`. -/
  | branch (test : List ι → Nat → Out Bool) (p q : Pat ι β)
  /-- `ctor/map.rs` `Map`. -/
  | map (p : Pat ι β) (f : Val β → Out (Val β))
  /-- `ctor/pat.rs` `Pattern`. -/
  | pat (p : Pat ι β)
  /-- `regex/builder.rs` `into_regex_builder`: the closure gets the context
  (data, offset) and the first span; it returns the new pattern and may move
  the offset. -/
  | build (p : Pat ι β) (f : List ι → Nat → Span → Res (Pat ι β))
  /-- `ctor/dthen.rs` `DynamicCtorThenBuilder`. -/
  | dthen (p : Pat ι β) (f : List ι → Nat → Val β → Res (Pat ι β))
  /-- handle number `i` of a recursive pattern (`regex/rec.rs`): an
  `Rc<RefCell<Option<…>>>` whose content is looked up in the rule environment. -/
  | cell (i : Nat)
end

/-- Contents of the recursive cells: `none` = `None` inside the `RefCell`. -/
abbrev Rules (ι β : Type) := Nat → Option (Pat ι β)

end Neure
