import Verif.Match
/-!
# Contexts (`src/ctx.rs`, `src/ctx/regex.rs`, `src/ctx/policy.rs`, `src/iter/byte.rs`)

The other modules pass the text and the position separately and know at most one
policy.  Here a context is a value, policies may be nested, and the methods of the
trait `Context` are those of each kind of context.
-/

namespace Neure

variable {ι β : Type} [Item ι]

/-! ## `RegexCtx` -/

/-- `RegexCtx`, `src/ctx/regex.rs:20-26`. -/
structure RCtx (ι : Type) where
  dat : List ι
  offset : Nat

namespace RCtx

/-- `RegexCtx::new`, `src/ctx/regex.rs:44-46`. -/
def new (dat : List ι) : RCtx ι := ⟨dat, 0⟩

/-- `with_dat`, `src/ctx/regex.rs:59-62`. -/
def withDat (c : RCtx ι) (dat : List ι) : RCtx ι := { c with dat }

/-- `with_offset`, `src/ctx/regex.rs:65-68`. -/
def withOffset (c : RCtx ι) (offset : Nat) : RCtx ι := { c with offset }

/-- `reset_with`, `src/ctx/regex.rs:71-75`. -/
def resetWith (_ : RCtx ι) (dat : List ι) : RCtx ι := ⟨dat, 0⟩

/-- `reset`, `src/ctx/regex.rs:78-81`. -/
def reset (c : RCtx ι) : RCtx ι := { c with offset := 0 }

/-- `RegexCtx::with(dat, f)`, `src/ctx/regex.rs:109-116`. -/
def with_ {γ : Type} (dat : List ι) (f : RCtx ι → γ) : γ := f (new dat)

end RCtx

/-! ## Contexts with policies around them -/

/-- A context: `RegexCtx`, or `PolicyCtx` around a context (`src/ctx/policy.rs:16-19`). -/
inductive Cx (ι β : Type) where
  | plain (c : RCtx ι)
  | policy (inner : Cx ι β) (regex : Pat ι β)

namespace Cx

/-- `ctx.skip_before(r)`, `src/ctx/regex.rs:190-192`. -/
def skipBefore (c : RCtx ι) (regex : Pat ι β) : Cx ι β := .policy (.plain c) regex

/-- `PolicyCtx::with_regex`, `src/ctx/policy.rs:47-52`. -/
def withRegex (inner : Cx ι β) (_regex regex : Pat ι β) : Cx ι β := .policy inner regex

/-- The text, `self.dat` of the innermost context. -/
def dat : Cx ι β → List ι
  | .plain c => c.dat
  | .policy i _ => i.dat

/-- `Context::len`: `src/ctx/regex.rs:345-347, 393-395`, `src/ctx/policy.rs:98-100`. -/
def len : Cx ι β → Nat
  | .plain c => blen c.dat
  | .policy i _ => i.len

/-- `Context::is_empty`, `src/ctx.rs:44-46`. -/
def isEmpty (c : Cx ι β) : Bool := c.len == 0

/-- `Context::offset`: `src/ctx/regex.rs:349-351, 397-399`, `src/ctx/policy.rs:102-104`. -/
def offset : Cx ι β → Nat
  | .plain c => c.offset
  | .policy i _ => i.offset

/-- `Context::set_offset`: `src/ctx/regex.rs:353-357, 401-405`, `src/ctx/policy.rs:106-109`. -/
def setOffset : Cx ι β → Nat → Cx ι β
  | .plain c, o => .plain { c with offset := o }
  | .policy i r, o => .policy (i.setOffset o) r

/-- `Context::inc`: `src/ctx/regex.rs:359-363, 407-411`, `src/ctx/policy.rs:111-114`;
`none` when `+=` overflows (a panic with overflow checks). -/
def inc : Cx ι β → Nat → Option (Cx ι β)
  | .plain c, n => if c.offset + n ≤ usizeMax then some (.plain { c with offset := c.offset + n }) else none
  | .policy i r, n => (i.inc n).map fun i => .policy i r

/-- `Context::dec`: `src/ctx/regex.rs:365-369, 413-417`, `src/ctx/policy.rs:116-119`;
`none` when `-=` underflows. -/
def dec : Cx ι β → Nat → Option (Cx ι β)
  | .plain c, n => if n ≤ c.offset then some (.plain { c with offset := c.offset - n }) else none
  | .policy i r, n => (i.dec n).map fun i => .policy i r

/-- `Context::orig_sub`: `src/ctx/regex.rs:375-379, 427-431`, `src/ctx/policy.rs:129-131`
(`origSub` in `Data.lean`). -/
def origSub : Cx ι β → Nat → Nat → Out (List ι)
  | .plain c, o, n => Neure.origSub c.dat o n
  | .policy i _, o, n => i.origSub o n

/-- `Context::orig_at`: `src/ctx.rs:74-76`, `src/ctx/regex.rs:419-421`,
`src/ctx/policy.rs:121-123` (`origAt` in `Data.lean`). -/
def origAt : Cx ι β → Nat → Out (List ι)
  | .plain c, o => Neure.origAt c.dat o
  | .policy i _, o => i.origAt o

/-- `Context::orig`, `src/ctx.rs:69-71`. -/
def orig (c : Cx ι β) : Out (List ι) := c.origAt c.offset

/-- `Context::peek_at`: `src/ctx/regex.rs:371-373, 423-425`, `src/ctx/policy.rs:125-127`;
the iterator as the list of what it yields (`BytesIndices` is below, `char_indices` is
std). -/
def peekAt : Cx ι β → Nat → Out (List (Nat × ι))
  | .plain c, o =>
    match Neure.origAt c.dat o with
    | .ok l => .ok (indices 0 l)
    | .err e => .err e
    | .panic => .panic
  | .policy i _, o => i.peekAt o

/-- `Context::peek`, `src/ctx.rs:61-63`. -/
def peek (c : Cx ι β) : Out (List (Nat × ι)) := c.peekAt c.offset

/-- `Context::clone_at`: `src/ctx/regex.rs:381-383, 433-435`, `src/ctx/policy.rs:133-138`. -/
def cloneAt : Cx ι β → Nat → Out (Cx ι β)
  | .plain c, o =>
    match Neure.origAt c.dat o with
    | .ok l => .ok (.plain (.new l))
    | .err e => .err e
    | .panic => .panic
  | .policy i r, o =>
    match i.cloneAt o with
    | .ok i => .ok (.policy i r)
    | .err e => .err e
    | .panic => .panic

/-- `IndexBySpan::get_by_span`: `src/ctx/regex.rs:470-486`, `src/ctx/policy.rs:187-196`;
`Span::orig` is `src/span.rs:59-64`.  (`none` for a panic cannot occur.) -/
def getBySpan : Cx ι β → Span → Option (List ι)
  | .plain c, s =>
    match Neure.origSub c.dat s.beg s.len with
    | .ok l => some l
    | _ => none
  | .policy i _, s => i.getBySpan s

/-- The policies, the outermost first. -/
def layers : Cx ι β → List (Pat ι β)
  | .plain _ => []
  | .policy i r => r :: i.layers

end Cx

/-! ## Matching in a context with any number of policies -/

/-- `ctx.try_mat(p)`, given `try_parse` (`pr`) for every number of policies: on a plain
context `src/ctx/regex.rs:443-448`; with a policy `src/ctx/policy.rs:154-160`: the policy
is parsed on the inner context, which may itself have policies, then the pattern on the
whole context. -/
def matLayers (pr : List (Pat ι β) → List ι → Pat ι β → Nat → Option (Res Span))
    (ls : List (Pat ι β)) (d : List ι) (p : Pat ι β) (o : Nat) : Option (Res Span) :=
  match ls with
  | [] => pr [] d p o
  | q :: inner => caseR (pr inner d q o) (fun _ o' => pr ls d p o') (fun e o' => some (.err e o'))

/-- `p.try_parse(ctx)` with fuel, for any number of policies (`parse` in `Match.lean` for
at most one). -/
def parseLayers (G : Rules ι β) : Nat → List (Pat ι β) → List ι → Pat ι β → Nat → Option (Res Span)
  | 0 => fun _ _ _ _ => none
  | n + 1 => fun ls d p o => step G n (matLayers (parseLayers G n) ls) (parseLayers G n ls d) d p o

namespace Cx

/-- `ctx.try_mat(p)` finishes: the result and the context afterwards. -/
def Mat (G : Rules ι β) (c : Cx ι β) (p : Pat ι β) (r : Res Span) : Prop :=
  ∃ n, matLayers (parseLayers G n) c.layers c.dat p c.offset = some r

/-- `p.try_parse(ctx)` finishes. -/
def Parse (G : Rules ι β) (c : Cx ι β) (p : Pat ι β) (r : Res Span) : Prop :=
  ∃ n, parseLayers G n c.layers c.dat p c.offset = some r

end Cx

/-! ## `BytesIndices` -/

/-- `BytesIndices`, `src/iter/byte.rs:1-6`. -/
structure BytesIndices where
  offset : Nat
  bytes : List UInt8

namespace BytesIndices

/-- `BytesIndices::new`, `src/iter/byte.rs:17-19`. -/
def new (bytes : List UInt8) : BytesIndices := ⟨0, bytes⟩

/-- `next`, `src/iter/byte.rs:28-37`; the outer `none` is the panic of `bytes[offset]`. -/
def next (it : BytesIndices) : Option (Option (Nat × UInt8) × BytesIndices) :=
  if it.offset < it.bytes.length then
    match it.bytes[it.offset]? with
    | none => none
    | some b => some (some (it.offset, b), { it with offset := it.offset + 1 })
  else some (none, it)

/-- `size_hint`, `src/iter/byte.rs:39-43`; `none` when the subtraction underflows. -/
def sizeHint (it : BytesIndices) : Option (Nat × Option Nat) :=
  if it.offset ≤ it.bytes.length then
    some (it.bytes.length - it.offset, some (it.bytes.length - it.offset))
  else none

end BytesIndices

end Neure
