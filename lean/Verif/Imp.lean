import Verif.Ctor
/-!
# The combinators as imperative programs

`Match.lean` and `Ctor.lean` give each combinator as an equation between results.
Here the bodies of the same functions are written down statement by statement, as
programs over a machine with a mutable offset and a mutable handler: `ctx.offset()`,
`ctx.set_offset(..)`, `CtxGuard` with its flag and its `drop`, `?`, loops with
`break`.  `PropsGuard.lean` proves that they compute the same.

The `debug_*!` macros only log and are left out.
-/

namespace Neure

set_option linter.unusedVariables false

/-! ## The machine -/

/-- What a call does: it returns `a` with the handler in state `st` and the context
at offset `off`, or it panics.  A Rust `Result` is a value `Except Error α`. -/
inductive MRes (σ α : Type) where
  | done (a : α) (st : σ) (off : Nat)
  | panic

/-- A program acting on `ctx` (its offset) and on the handler.  `none`: the fuel
given to some loop inside did not suffice. -/
abbrev M (σ α : Type) : Type := σ → Nat → Option (MRes σ α)

variable {σ : Type}

instance : Monad (M σ) where
  pure a := fun st o => some (.done a st o)
  bind x f := fun st o => match x st o with
    | none => none
    | some .panic => some .panic
    | some (.done a st' o') => f a st' o'

/-- `ctx.offset()`. -/
def offset : M σ Nat := fun st o => some (.done o st o)

/-- `ctx.set_offset(n)`, `src/ctx/regex.rs:353-356, 401-404`. -/
def setOffset (n : Nat) : M σ Unit := fun st _ => some (.done () st n)

/-- A panic. -/
def panic_ {α : Type} : M σ α := fun _ _ => some .panic

/-- `span.add_assign(other)` on a local variable: returns the new value. -/
def addAssign (s t : Span) : M σ Span := match s.addAssign t with
  | some s' => pure s'
  | none => panic_

/-- A `Result` with `unwrap_or`-like access used below. -/
def isOk {α : Type} : Except Error α → Bool
  | .ok _ => true
  | .error _ => false

/-- `ret.inspect_err(|_| ctx.set_offset(offset))`. -/
def inspectErr {α : Type} (ret : Except Error α) (off : Nat) : M σ (Except Error α) := do
  match ret with
  | .ok a => return .ok a
  | .error e => setOffset off; return .error e

/-- A loop: the body gets the local variables and returns them with `true`
(next round) or `false` (`break`, or loop condition false). -/
def loop {S : Type} (body : S → M σ (S × Bool)) : Nat → S → M σ S
  | 0, _ => fun _ _ => none
  | fuel + 1, s => do
    let (s', more) ← body s
    if more then loop body fuel s' else return s'

/-- `for item in slice.iter()` with `break`. -/
def forIn_ {T S : Type} (body : T → S → M σ (S × Bool)) : List T → S → M σ S
  | [], s => return s
  | x :: l, s => do
    let (s', more) ← body x s
    if more then forIn_ body l s' else return s'

/-! ## `CtxGuard`, `src/ctx/guard.rs` -/

/-- The fields `offset` and `reset` of `CtxGuard`, `src/ctx/guard.rs:11-23`. -/
structure Guard where
  offset : Nat
  reset : Bool

/-- What a function body holding a guard does: it runs to its end or leaves early
through `?`; in both cases `r` is the result of the function. -/
inductive GRes (σ α : Type) where
  | done (r : Except Error α) (g : Guard) (st : σ) (off : Nat)
  | panic

/-- The body of a function holding a guard (`let mut ctx = CtxGuard::new(ctx)`). -/
abbrev GM (σ α : Type) : Type := Guard → σ → Nat → Option (GRes σ α)

instance : Monad (GM σ) where
  pure a := fun g st o => some (.done (.ok a) g st o)
  bind x f := fun g st o => match x g st o with
    | none => none
    | some .panic => some .panic
    | some (.done (.ok a) g' st' o') => f a g' st' o'
    | some (.done (.error e) g' st' o') => some (.done (.error e) g' st' o')

/-- A call made with `ctx.ctx()`: the guard does not notice. -/
def GM.call {α : Type} (x : M σ α) : GM σ α := fun g st o => match x st o with
  | none => none
  | some .panic => some .panic
  | some (.done a st' o') => some (.done (.ok a) g st' o')

/-- `r?`. -/
def GM.try_ {α : Type} (r : Except Error α) : GM σ α := fun g st o => some (.done r g st o)

/-- `ctx.beg()`, `src/ctx/guard.rs:41-43`. -/
def GM.beg : GM σ Nat := fun g st o => some (.done (.ok g.offset) g st o)

/-- `ctx.end()`, `src/ctx/guard.rs:46-48`. -/
def GM.end_ : GM σ Nat := fun g st o => some (.done (.ok o) g st o)

/-- `ctx.inc(len)`, `src/ctx/guard.rs:64-69`. -/
def GM.inc (len : Nat) : GM σ Span := fun g st o => some (.done (.ok ⟨g.offset, len⟩) g st (o + len))

/-- `ctx.reset()`, `src/ctx/guard.rs:82-85`. -/
def GM.reset : GM σ Unit := fun g st _ => some (.done (.ok ()) g st g.offset)

/-- `ctx.process_ret(ret)`, `src/ctx/guard.rs:88-93`. -/
def GM.processRet {α : Type} (ret : Except Error α) : GM σ (Except Error α) := fun g st o =>
  some (.done (.ok ret) (if isOk ret then g else { g with reset := true }) st o)

/-- `ctx.try_mat(pattern)`, `src/ctx/guard.rs:103-107`; `m` is `try_mat` of the
underlying context. -/
def GM.tryMat {α : Type} (m : M σ (Except Error α)) : GM σ (Except Error α) := fun g st o =>
  match m st o with
  | none => none
  | some .panic => some .panic
  | some (.done r st' o') =>
    some (.done (.ok r) (if isOk r then g else { g with reset := true }) st' o')

/-- `CtxGuard::new`, `src/ctx/guard.rs:29-38`; the body; then `drop`,
`src/ctx/guard.rs:116-120`. -/
def guarded {α : Type} (body : GM σ α) : M σ (Except Error α) := fun st o =>
  match body ⟨o, false⟩ st o with
  | none => none
  | some .panic => some .panic
  | some (.done r g st' o') => some (.done r st' (if g.reset then g.offset else o'))

/-! ## Functions without a guard: `?` only -/

/-- A function body that uses `?` and holds no guard: nothing happens at its end. -/
def function {α : Type} (body : GM σ α) : M σ (Except Error α) := fun st o =>
  match body ⟨o, false⟩ st o with
  | none => none
  | some .panic => some .panic
  | some (.done r _ st' o') => some (.done r st' o')

/-- A closure returning a `Result` that sees the context but does not move it. -/
def peekCtx {α : Type} (f : Nat → Out α) : M σ (Except Error α) := fun st o => match f o with
  | .ok a => some (.done (.ok a) st o)
  | .err e => some (.done (.error e) st o)
  | .panic => some .panic

/-- A call that gets `&mut ctx`, given by its result and the offset it leaves. -/
def moveCtx {α : Type} (f : Nat → Res α) : M σ (Except Error α) := fun st o => match f o with
  | .ok a o' => some (.done (.ok a) st o')
  | .err e o' => some (.done (.error e) st o')
  | .panic => some .panic

section Leaves
variable {ι β : Type} [Item ι]

/-- `let remaining_len = ctx.len() - ctx.offset()`. -/
def remaining (d : List ι) : M σ Nat := do
  let off ← offset
  if off ≤ blen d then return blen d - off else panic_

/-- `new_span_inc(ctx, len)`, `src/ctx.rs:679-684`: the span at the present offset,
then `ctx.inc(len)`. -/
def spanInc (len : Nat) : M σ Span := do
  let off ← offset
  setOffset (off + len)
  return ⟨off, len⟩

/-- `calc_length(beg, end, remaining_len)`, `src/neu.rs:708-711`. -/
def calcLen (beg stop : Option Nat) (rem : Nat) : M σ Nat :=
  match calcLength beg stop rem with
  | none => panic_
  | some l => pure l

/-- A call on a clone of the context at another place: the clone has its own
offset, starting at 0. -/
def onClone {α : Type} (x : M σ α) : M σ α := fun st o => match x st 0 with
  | none => none
  | some .panic => some .panic
  | some (.done a st' _) => some (.done a st' o)

/- `ctx.try_mat` on a context over the data given -/
variable (mt : List ι → Pat ι β → M σ (Except Error Span))

/-- `NeuCond::check`, `src/neu/cond.rs:57-61, 71-73, 122-128`. -/
def Imp.check (d : List ι) (c : Cond ι β) (item : Nat × ι) : M σ (Except Error Bool) :=
  match c with
  | .empty => return .ok true
  | .fn f => peekCtx fun o => f d o item
  | .regex p => function do
    let off ← GM.call offset
    let clone ← GM.try_ (← GM.call (peekCtx fun _ => origAt d (off + item.1)))
    let ret ← GM.call (onClone (mt clone p))
    return isOk ret

/-- `unit.is_match(&item) && cond.check(ctx, &pair)?`. -/
def Imp.test (d : List ι) (u : Neu ι) (c : Cond ι β) (pair : Nat × ι) : GM σ Bool := do
  if u.isMatch pair.2 then GM.try_ (← GM.call (Imp.check mt d c pair)) else return false

/-- `src/neu/once.rs:185-200` `Once::try_parse`. -/
def Imp.once (d : List ι) (u : Neu ι) (c : Cond ι β) : M σ (Except Error Span) := function do
  let iter ← GM.try_ (← GM.call (peekCtx (peek d)))
  let rem ← GM.call (remaining d)
  match iter with
  | [] => GM.try_ (.error .once)
  | pair :: iter =>
    if ← Imp.test mt d u c pair then
      let len ← GM.call (calcLen (some pair.1) (iter.head?.map (·.1)) rem)
      GM.call (spanInc len)
    else GM.try_ (.error .once)

/-- `src/neu/opt.rs:196-211` `Opt::try_parse`. -/
def Imp.optU (d : List ι) (u : Neu ι) (c : Cond ι β) : M σ (Except Error Span) := function do
  let off ← GM.call offset
  let rem ← GM.call (remaining d)
  match ← GM.call (peekCtx (peek d)) with
  | .error _ => return ⟨off, 0⟩
  | .ok [] => return ⟨off, 0⟩
  | .ok (pair :: iter) =>
    if ← Imp.test mt d u c pair then
      let len ← GM.call (calcLen (some pair.1) (iter.head?.map (·.1)) rem)
      GM.call (spanInc len)
    else return ⟨off, 0⟩

/-- `for pair in iter.by_ref() { if !is_match || !check? { end = Some(pair); break; }
if beg.is_none() { beg = Some(pair.0); } }` of `Many0` and `Many1`; returns `beg`
and `end`. -/
def Imp.scanAll (d : List ι) (u : Neu ι) (c : Cond ι β) :
    List (Nat × ι) → Option Nat → GM σ (Option Nat × Option Nat)
  | [], beg => return (beg, none)
  | pair :: iter, beg => do
    if ← Imp.test mt d u c pair then
      Imp.scanAll d u c iter (if beg.isNone then some pair.1 else beg)
    else return (beg, some pair.1)

/-- `src/neu/opt.rs:392-416` `Many0::try_parse`. -/
def Imp.many0 (d : List ι) (u : Neu ι) (c : Cond ι β) : M σ (Except Error Span) := function do
  let off ← GM.call offset
  let rem ← GM.call (remaining d)
  match ← GM.call (peekCtx (peek d)) with
  | .error _ => return ⟨off, 0⟩
  | .ok iter =>
    let (beg, stop) ← Imp.scanAll mt d u c iter none
    match beg with
    | none => return ⟨off, 0⟩
    | some start => GM.call (spanInc (← GM.call (calcLen (some start) stop rem)))

/-- `src/neu/once.rs:379-403` `Many1::try_parse`. -/
def Imp.many1 (d : List ι) (u : Neu ι) (c : Cond ι β) : M σ (Except Error Span) := function do
  let iter ← GM.try_ (← GM.call (peekCtx (peek d)))
  let rem ← GM.call (remaining d)
  let (beg, stop) ← Imp.scanAll mt d u c iter none
  match beg with
  | none => GM.try_ (.error .many1)
  | some start => GM.call (spanInc (← GM.call (calcLen (some start) stop rem)))

/-- `while more(cnt) { if let Some(pair) = iter.next() { if test { cnt += 1; if
beg.is_none() { beg = Some(pair.0); } continue; } else { end = Some(pair); } }
break; }` of `Between` and `Times`; returns `cnt`, `beg`, `end` and the iterator. -/
def Imp.scanWhile (d : List ι) (u : Neu ι) (c : Cond ι β) (more : Nat → Bool) :
    List (Nat × ι) → Nat → Option Nat → GM σ (Nat × Option Nat × Option Nat × List (Nat × ι))
  | [], cnt, beg => return (cnt, beg, none, [])
  | pair :: iter, cnt, beg =>
    if more cnt then do
      if ← Imp.test mt d u c pair then
        Imp.scanWhile d u c more iter (cnt + 1) (if beg.isNone then some pair.1 else beg)
      else return (cnt, beg, some pair.1, iter)
    else return (cnt, beg, none, pair :: iter)

/-- `src/neu/times.rs:224-257` `Between::try_parse`. -/
def Imp.between (d : List ι) (m n : Nat) (u : Neu ι) (c : Cond ι β) :
    M σ (Except Error Span) := function do
  let iter ← GM.try_ (← GM.call (peekCtx (peek d)))
  let rem ← GM.call (remaining d)
  if rem ≥ m * u.minLength then
    let (cnt, beg, stop, iter) ← Imp.scanWhile mt d u c (fun cnt => decide (cnt < n)) iter 0 none
    if cnt ≥ m then
      let stop := stop.or (iter.head?.map (·.1))
      GM.call (spanInc (← GM.call (calcLen beg stop rem)))
    else GM.try_ (.error .between)
  else GM.try_ (.error .between)

/-- `src/neu/times.rs:430-479` `Times::try_parse`. -/
def Imp.times (d : List ι) (r : CRange) (u : Neu ι) (c : Cond ι β) :
    M σ (Except Error Span) := function do
  let iter ← GM.try_ (← GM.call (peekCtx (peek d)))
  let rem ← GM.call (remaining d)
  if rem ≥ r.needed u.minLength then
    let (cnt, beg, stop, iter) ← Imp.scanWhile mt d u c r.more iter 0 none
    if r.contains cnt then
      let stop := stop.or (iter.head?.map (·.1))
      GM.call (spanInc (← GM.call (calcLen beg stop rem)))
    else GM.try_ (.error .times)
  else GM.try_ (.error .times)

/-- `src/neu/then.rs:204-223` `NeureThen::try_parse`. -/
def Imp.thenU (d : List ι) (u v : Neu ι) (c : Cond ι β) : M σ (Except Error Span) := function do
  let iter ← GM.try_ (← GM.call (peekCtx (peek d)))
  let rem ← GM.call (remaining d)
  if rem ≥ u.minLength + v.minLength then
    match iter with
    | fst :: snd :: iter =>
      if ← Imp.test mt d u c fst then
        if ← Imp.test mt d v c snd then
          GM.call (spanInc (← GM.call (calcLen (some fst.1) (iter.head?.map (·.1)) rem)))
        else GM.try_ (.error .neureThen)
      else GM.try_ (.error .neureThen)
    | _ => GM.try_ (.error .neureThen)
  else GM.try_ (.error .neureThen)

/-- `src/regex/literal.rs:104-114` `Literal::try_parse`. -/
def Imp.lit (d : List ι) (l : List ι) : M σ (Except Error Span) := function do
  let rem ← GM.call (remaining d)
  if rem ≥ blen l then
    let orig ← GM.try_ (← GM.call (peekCtx (origAt d)))
    if l.isPrefixOf orig then GM.call (spanInc (blen l)) else GM.try_ (.error .literal)
  else GM.try_ (.error .literal)

/-- `src/regex/consume.rs:76-87` `Consume::try_parse`. -/
def Imp.consume (d : List ι) (n : Nat) : M σ (Except Error Span) := do
  if (← remaining d) ≥ n then return .ok (← spanInc n) else return .error .consume

/-- `src/regex/consume.rs:173-180` `ConsumeAll::try_parse`. -/
def Imp.consumeAll (d : List ι) : M σ (Except Error Span) := do
  let len := blen d - (← offset)
  return .ok (← spanInc len)

/-- `src/regex/anchor.rs:75-85` `AnchorStart::try_parse`. -/
def Imp.start : M σ (Except Error Span) := do
  if (← offset) = 0 then return .ok (← spanInc 0) else return .error .anchorStart

/-- `src/regex/anchor.rs:176-186` `AnchorEnd::try_parse`. -/
def Imp.anchorEnd (d : List ι) : M σ (Except Error Span) := do
  if (← offset) = blen d then return .ok (← spanInc 0) else return .error .anchorEnd

/-- `src/regex/empty.rs:61-63`. -/
def Imp.empty : M σ (Except Error Span) := do return .ok ⟨← offset, 0⟩

/-- `src/regex/fail.rs:61-63`. -/
def Imp.fail : M σ (Except Error Span) := return .error .fail

end Leaves

/-! ## `try_parse` -/

section Parse
variable {ι β : Type} [Item ι]
/- `ctx.try_mat(p)` -/
variable (mt : Pat ι β → M σ (Except Error Span))

/-- `src/regex/assert.rs:92-106` `Assert::try_parse`. -/
def Imp.assert (q : Pat ι β) (value : Bool) : M σ (Except Error Span) := do
  let off ← offset
  let r ← mt q
  let ret := if isOk r = value then .ok ⟨off, 0⟩
    else if value then .error .assertTrue
    else .error .assertFalse
  setOffset off
  return ret

/-- `src/ctor/then.rs:242-251` `Then::try_parse`. -/
def Imp.thn (a b : Pat ι β) : M σ (Except Error Span) := guarded do
  let ret ← GM.try_ (← GM.tryMat (mt a))
  let s ← GM.try_ (← GM.tryMat (mt b))
  GM.call (addAssign ret s)

/-- `src/ctor/then.rs:492-511` `IfThen::try_parse`; the inner guard lives in a
block of its own. -/
def Imp.ifThen (a t b : Pat ι β) : M σ (Except Error Span) := guarded do
  let ret ← GM.try_ (← GM.tryMat (mt a))
  let span ← GM.call (guarded do GM.try_ (← GM.tryMat (mt t)))
  match span with
  | .ok span =>
    let ret ← GM.call (addAssign ret span)
    let s ← GM.try_ (← GM.tryMat (mt b))
    GM.call (addAssign ret s)
  | .error _ => return ret

/-- `src/ctor/affix.rs:423-436` `Prefix::try_parse`. -/
def Imp.pre (a b : Pat ι β) : M σ (Except Error Span) := guarded do
  let ret ← GM.try_ (← GM.tryMat (mt a))
  let s ← GM.try_ (← GM.tryMat (mt b))
  GM.call (addAssign ret s)

/-- `src/ctor/affix.rs:216-228` `Suffix::try_parse`. -/
def Imp.suf (a b : Pat ι β) : M σ (Except Error Span) := guarded do
  let ret ← GM.try_ (← GM.tryMat (mt a))
  let s ← GM.try_ (← GM.tryMat (mt b))
  GM.call (addAssign ret s)

/-- `src/ctor/enclose.rs:241-259` `Enclose::try_parse`. -/
def Imp.enclose (a b c : Pat ι β) : M σ (Except Error Span) := guarded do
  let ret ← GM.try_ (← GM.tryMat (mt a))
  let s ← GM.try_ (← GM.tryMat (mt b))
  let ret ← GM.call (addAssign ret s)
  let s ← GM.try_ (← GM.tryMat (mt c))
  GM.call (addAssign ret s)

/-- `src/ctor/sep.rs:245-254` `SepOnce::try_parse`. -/
def Imp.sepOnce (a b c : Pat ι β) : M σ (Except Error Span) := guarded do
  let span : Span := ⟨← GM.beg, 0⟩
  let span ← GM.call (addAssign span (← GM.try_ (← GM.tryMat (mt a))))
  let span ← GM.call (addAssign span (← GM.try_ (← GM.tryMat (mt b))))
  GM.call (addAssign span (← GM.try_ (← GM.tryMat (mt c))))

/-- `src/ctor/or.rs:238-252` `Or::try_parse`. -/
def Imp.or (a b : Pat ι β) : M σ (Except Error Span) := do
  let off ← offset
  let l ← mt a
  let ret ← match l with
    | .ok s => pure (.ok s)
    | .error _ => do
      setOffset off
      mt b
  inspectErr ret off

/-- `src/ctor/longest.rs:239-261` `LongestTokenMatch::try_parse`. -/
def Imp.longest (a b : Pat ι β) : M σ (Except Error Span) := do
  let off ← offset
  let l ← mt a
  setOffset off
  let r ← mt b
  let ret : Except Error Span := match l, r with
    | .ok l, .ok r => .ok (if l.len ≥ r.len then l else r)
    | .ok l, .error _ => .ok l
    | .error _, .ok r => .ok r
    | .error _, .error e => .error e
  setOffset (off + (match ret with | .ok v => v.len | .error _ => 0))
  return ret

/-- `src/ctor/opt.rs:178-191` `OptionPat::try_parse`. -/
def Imp.opt (q : Pat ι β) : M σ (Except Error Span) := do
  let off ← offset
  let ret ← inspectErr (← mt q) off
  match ret with
  | .ok s => return .ok s
  | .error _ => return .ok ⟨off, 0⟩

/-- `src/regex.rs:773-798` `handler`. -/
def Imp.choice (err : Error) (slice : List (Pat ι β × Option (Val β))) : M σ (Except Error Span) := do
  let beg ← offset
  forIn_ (fun item ret => do
    let r ← inspectErr (← mt item.1) beg
    match r with
    | .ok span => return (.ok span, false)
    | .error _ => return (ret, true)) slice (.error err)

/-- `src/regex.rs:800-826` `handler_ltm`. -/
def Imp.ltm (err : Error) (slice : List (Pat ι β × Option (Val β))) : M σ (Except Error Span) := do
  let beg ← offset
  let longest ← forIn_ (fun item (longest : Option Span) => do
    setOffset beg
    let r ← mt item.1
    match r with
    | .ok span =>
      if (longest.map fun v => decide (v.len < span.len)).getD true then return (some span, true)
      else return (longest, true)
    | .error _ => return (longest, true)) slice none
  match longest with
  | some s => return .ok s
  | none => return .error err

/-- `src/ctor/repeat.rs:248-272` `Repeat::try_parse`. -/
def Imp.rep (fuel : Nat) (q : Pat ι β) (range : CRange) : M σ (Except Error Span) := do
  let off ← offset
  let (cnt, total) ← loop (fun (cnt, total) => do
    if range.more cnt then
      match ← mt q with
      | .ok s => return ((cnt + 1, ← addAssign total s), true)
      | .error _ => return ((cnt, total), false)
    else return ((cnt, total), false)) fuel (0, (⟨off, 0⟩ : Span))
  inspectErr (if range.contains cnt then .ok total else .error .repeat_) off

/-- `src/ctor/repeat2.rs:196-221` `Repeat2::try_parse`. -/
def Imp.rep2 (fuel : Nat) (q : Pat ι β) (m n : Nat) : M σ (Except Error Span) := do
  let off ← offset
  let (cnt, total) ← loop (fun (cnt, total) => do
    if cnt ≤ n then
      match ← mt q with
      | .ok s => return ((cnt + 1, ← addAssign total s), true)
      | .error _ => return ((cnt, total), false)
    else return ((cnt, total), false)) fuel (0, (⟨off, 0⟩ : Span))
  inspectErr (if m ≤ cnt ∧ cnt ≤ n then .ok total else .error .repeat2) off

/-- `src/ctor/collect.rs:197-218` `Collect::try_parse`. -/
def Imp.collect (fuel : Nat) (q : Pat ι β) (min : Nat) : M σ (Except Error Span) := do
  let off ← offset
  let (cnt, span) ← loop (fun (cnt, span) => do
    match ← mt q with
    | .ok ret => return ((cnt + 1, ← addAssign span ret), true)
    | .error _ => return ((cnt, span), false)) fuel (0, (⟨off, 0⟩ : Span))
  inspectErr (if cnt ≥ min then .ok span else .error .collect) off

/-- The body of the loops of `Separate`, `Separate2` and `SepCollect` once the
element has matched, `src/ctor/sep.rs:550-561, 837-848, 1150-1161`. -/
def Imp.sepBody (s : Pat ι β) (skip : Bool) (cnt : Nat) (total pSpan : Span) :
    M σ ((Nat × Span) × Bool) := do
  let sSpan ← mt s
  let (cnt, total) ← if isOk sSpan || skip then do
      let total ← addAssign total pSpan
      match sSpan with
      | .ok sepRet => pure (cnt + 1, ← addAssign total sepRet)
      | .error _ => pure (cnt + 1, total)
    else pure (cnt, total)
  return ((cnt, total), isOk sSpan)

/-- `src/ctor/sep.rs:542-573` `Separate::try_parse`. -/
def Imp.sep (fuel : Nat) (q s : Pat ι β) (skip : Bool) (min : Nat) : M σ (Except Error Span) := do
  let off ← offset
  let (cnt, total) ← loop (fun (cnt, total) => do
    match ← mt q with
    | .ok pSpan => Imp.sepBody mt s skip cnt total pSpan
    | .error _ => return ((cnt, total), false)) fuel (0, (⟨off, 0⟩ : Span))
  inspectErr (if cnt ≥ min then .ok total else .error .separate) off

/-- `src/ctor/sep.rs:828-863` `Separate2::try_parse`. -/
def Imp.sep2 (fuel : Nat) (q s : Pat ι β) (skip : Bool) (m n : Nat) : M σ (Except Error Span) := do
  let off ← offset
  let (cnt, total) ← loop (fun (cnt, total) => do
    if cnt ≤ n then
      match ← mt q with
      | .ok pSpan => Imp.sepBody mt s skip cnt total pSpan
      | .error _ => return ((cnt, total), false)
    else return ((cnt, total), false)) fuel (0, (⟨off, 0⟩ : Span))
  inspectErr (if cnt ≥ m then .ok total else .error .separate2) off

/-- `src/ctor/sep.rs:1142-1173` `SepCollect::try_parse`. -/
def Imp.sepCollect (fuel : Nat) (q s : Pat ι β) (skip : Bool) (min : Nat) : M σ (Except Error Span) := do
  let off ← offset
  let (cnt, total) ← loop (fun (cnt, total) => do
    match ← mt q with
    | .ok pSpan => Imp.sepBody mt s skip cnt total pSpan
    | .error _ => return ((cnt, total), false)) fuel (0, (⟨off, 0⟩ : Span))
  inspectErr (if cnt ≥ min then .ok total else .error .sepCollect) off

/-- `src/ctor/branch.rs:249-265` `Branch::try_parse`. -/
def Imp.branch (d : List ι) (test : List ι → Nat → Out Bool) (a b : Pat ι β) : M σ (Except Error Span) := do
  let off ← offset
  match ← peekCtx (test d) with
  | .error e => return .error e
  | .ok t => inspectErr (← if t then mt a else mt b) off

/-- `src/regex/builder.rs:44-58` the closure of `into_regex_builder`. -/
def Imp.build (d : List ι) (q : Pat ι β) (f : List ι → Nat → Span → Res (Pat ι β)) :
    M σ (Except Error Span) := guarded do
  let span ← GM.try_ (← GM.tryMat (mt q))
  let newPat ← GM.try_ (← GM.call (moveCtx fun o => f d o span))
  let ret ← GM.tryMat (mt newPat)
  GM.try_ ret

end Parse

/-! ## `construct` -/

section Construct
variable {ι β : Type} [Item ι]
/- `ctx.try_mat(p)` and `p.construct(ctx, func)` -/
variable (mt : Pat ι β → M σ (Except Error Span)) (cn : Pat ι β → M σ (Except Error (Val β)))

/-- `src/ctor/then.rs:218-232` `Then::construct`. -/
def Imp.thnC (a b : Pat ι β) : M σ (Except Error (Val β)) := guarded do
  let ret ← GM.call do
    match ← cn a with
    | .ok ret1 => match ← cn b with
      | .ok ret2 => return .ok (.pair ret1 ret2)
      | .error e => return .error e
    | .error e => return .error e
  GM.try_ (← GM.processRet ret)

/-- `src/ctor/then.rs:453-481` `IfThen::construct`. -/
def Imp.ifThenC (a t b : Pat ι β) : M σ (Except Error (Val β)) := guarded do
  let l ← GM.call (cn a)
  let l ← GM.try_ (← GM.processRet l)
  let test ← GM.call (guarded do GM.try_ (← GM.tryMat (mt t)))
  if isOk test then
    let r ← GM.call (cn b)
    let r ← GM.try_ (← GM.processRet r)
    return .pair l (.some r)
  else return .pair l .none

/-- `src/ctor/affix.rs:403-413` `Prefix::construct`. -/
def Imp.preC (a b : Pat ι β) : M σ (Except Error (Val β)) := guarded do
  let _ ← GM.try_ (← GM.tryMat (mt a))
  let r ← GM.call (cn b)
  GM.try_ (← GM.processRet r)

/-- `src/ctor/affix.rs:194-206` `Suffix::construct`. -/
def Imp.sufC (a b : Pat ι β) : M σ (Except Error (Val β)) := guarded do
  let ret ← GM.call (cn a)
  if isOk ret then
    let _ ← GM.try_ (← GM.tryMat (mt b))
    GM.try_ (← GM.processRet ret)
  else GM.try_ (← GM.processRet ret)

/-- `src/ctor/enclose.rs:218-231` `Enclose::construct`. -/
def Imp.encloseC (a b c : Pat ι β) : M σ (Except Error (Val β)) := guarded do
  let _ ← GM.try_ (← GM.tryMat (mt a))
  let r ← GM.call (cn b)
  let r ← GM.try_ (← GM.processRet r)
  let _ ← GM.try_ (← GM.tryMat (mt c))
  return r

/-- `src/ctor/sep.rs:221-234` `SepOnce::construct`. -/
def Imp.sepOnceC (a b c : Pat ι β) : M σ (Except Error (Val β)) := guarded do
  let r ← GM.call (cn a)
  let r ← GM.try_ (← GM.processRet r)
  let _ ← GM.try_ (← GM.tryMat (mt b))
  let l ← GM.call (cn c)
  let l ← GM.try_ (← GM.processRet l)
  return .pair r l

/-- `src/ctor/or.rs:213-228` `Or::construct`. -/
def Imp.orC (a b : Pat ι β) : M σ (Except Error (Val β)) := do
  let off ← offset
  let l ← cn a
  let ret ← match l with
    | .ok s => pure (.ok s)
    | .error _ => do
      setOffset off
      cn b
  inspectErr ret off

/-- `src/ctor/longest.rs:196-229` `LongestTokenMatch::construct`. -/
def Imp.longestC (a b : Pat ι β) : M σ (Except Error (Val β)) := do
  let off ← offset
  let l ← cn a
  let offL ← offset
  setOffset off
  let r ← cn b
  let offR ← offset
  let ret : Except Error (Nat × Val β) := match l, r with
    | .ok l, .ok r => .ok (if offL ≥ offR then (offL, l) else (offR, r))
    | .ok l, .error _ => .ok (offL, l)
    | .error _, .ok r => .ok (offR, r)
    | .error _, .error e => .error e
  setOffset (match ret with | .ok v => v.1 | .error _ => off)
  return ret.map (·.2)

/-- `src/ctor/opt.rs:155-169` `OptionPat::construct`. -/
def Imp.optC (q : Pat ι β) : M σ (Except Error (Val β)) := do
  let off ← offset
  match ← inspectErr (← cn q) off with
  | .ok v => return .ok (.some v)
  | .error _ => return .ok .none

/-- `src/ctor.rs:912-940` `handler`. -/
def Imp.choiceC (err : Error) (slice : List (Pat ι β × Option (Val β))) : M σ (Except Error (Val β)) := do
  let off ← offset
  forIn_ (fun item ret => do
    let r ← inspectErr (← cn item.1) off
    match r with
    | .ok val => return (.ok (tagged item.2 val), false)
    | .error _ => return (ret, true)) slice (.error err)

/-- `src/ctor.rs:942-973` `handler_ltm`. -/
def Imp.ltmC (err : Error) (slice : List (Pat ι β × Option (Val β))) : M σ (Except Error (Val β)) := do
  let beg ← offset
  let (ret, _) ← forIn_ (fun item ((ret, stop) : Option (Val β × Option (Val β)) × Nat) => do
    setOffset beg
    match ← cn item.1 with
    | .ok val =>
      if (← offset) > stop then return ((some (val, item.2), ← offset), true)
      else return ((ret, stop), true)
    | .error _ => return ((ret, stop), true)) slice (none, beg)
  match ret with
  | some (v, k) => return .ok (tagged k v)
  | none => return .error err

/-- `src/ctor/repeat.rs:214-239` `Repeat::construct`. -/
def Imp.repC (fuel : Nat) (q : Pat ι β) (range : CRange) : M σ (Except Error (Val β)) := do
  let off ← offset
  let (cnt, vals) ← loop (fun ((cnt, vals) : Nat × List (Val β)) => do
    if range.more cnt then
      match ← cn q with
      | .ok val => return ((cnt + 1, vals ++ [val]), true)
      | .error _ => return ((cnt, vals), false)
    else return ((cnt, vals), false)) fuel (0, [])
  inspectErr (if range.contains cnt then .ok (Val.list vals) else .error .repeat_) off

/-- `vals[i] = Some(val)` on an array: panics when `i` is out of bounds. -/
def setAt (vals : List (Val β)) (i : Nat) (val : Val β) : M σ (List (Val β)) :=
  if i < vals.length then pure (vals.set i (.some val)) else panic_

/-- `src/ctor/repeat2.rs:161-187` `Repeat2::construct`. -/
def Imp.rep2C (fuel : Nat) (q : Pat ι β) (m n : Nat) : M σ (Except Error (Val β)) := do
  let off ← offset
  let (cnt, vals) ← loop (fun ((cnt, vals) : Nat × List (Val β)) => do
    if cnt ≤ n then
      match ← cn q with
      | .ok val => return ((cnt + 1, ← setAt vals cnt val), true)
      | .error _ => return ((cnt, vals), false)
    else return ((cnt, vals), false)) fuel (0, List.replicate n .none)
  inspectErr (if m ≤ cnt ∧ cnt ≤ n then .ok (Val.list vals) else .error .repeat2) off

/-- `src/ctor/collect.rs:166-188` `Collect::construct`: `from_iter` pulls values
out of the closure until it returns `None`. -/
def Imp.collectC (fuel : Nat) (q : Pat ι β) (min : Nat) : M σ (Except Error (Val β)) := do
  let off ← offset
  let (cnt, val) ← loop (fun ((cnt, val) : Nat × List (Val β)) => do
    match ← cn q with
    | .ok v => return ((cnt + 1, val ++ [v]), true)
    | .error _ => return ((cnt, val), false)) fuel (0, [])
  inspectErr (if cnt ≥ min then .ok (Val.list val) else .error .collect) off

/-- `src/ctor/sep.rs:505-532` `Separate::construct`. -/
def Imp.sepC (fuel : Nat) (q s : Pat ι β) (skip : Bool) (min : Nat) : M σ (Except Error (Val β)) := do
  let off ← offset
  let vals ← loop (fun (vals : List (Val β)) => do
    match ← cn q with
    | .ok val =>
      let sSpan ← mt s
      return (if isOk sSpan || skip then vals ++ [val] else vals, isOk sSpan)
    | .error _ => return (vals, false)) fuel []
  inspectErr (if vals.length ≥ min then .ok (Val.list vals) else .error .separate) off

/-- `src/ctor/sep.rs:785-818` `Separate2::construct`. -/
def Imp.sep2C (fuel : Nat) (q s : Pat ι β) (skip : Bool) (m n : Nat) : M σ (Except Error (Val β)) := do
  let off ← offset
  let (cnt, vals) ← loop (fun ((cnt, vals) : Nat × List (Val β)) => do
    if cnt ≤ n then
      match ← cn q with
      | .ok val =>
        let sSpan ← mt s
        if isOk sSpan || skip then
          return ((cnt + 1, ← setAt vals cnt val), isOk sSpan)
        else return ((cnt, vals), isOk sSpan)
      | .error _ => return ((cnt, vals), false)
    else return ((cnt, vals), false)) fuel (0, List.replicate n .none)
  inspectErr (if cnt ≥ m then .ok (Val.list vals) else .error .separate2) off

/-- `src/ctor/sep.rs:1094-1132` `SepCollect::construct`; the variables of the
closure are `cnt` and `end`. -/
def Imp.sepCollectC (fuel : Nat) (q s : Pat ι β) (skip : Bool) (min : Nat) : M σ (Except Error (Val β)) := do
  let off ← offset
  let (cnt, _, vals) ← loop (fun ((cnt, ended, vals) : Nat × Bool × List (Val β)) => do
    match ← cn q with
    | .ok ret =>
      let sSpan ← mt s
      if !ended then
        let ended := if isOk sSpan then ended else true
        if isOk sSpan || skip then return ((cnt + 1, ended, vals ++ [ret]), true)
        else return ((cnt, ended, vals), false)
      else return ((cnt, ended, vals), false)
    | .error _ => return ((cnt, ended, vals), false)) fuel (0, false, [])
  inspectErr (if cnt ≥ min then .ok (Val.list vals) else .error .sepCollect) off

/-- `src/ctor/branch.rs:221-238` `Branch::construct`. -/
def Imp.branchC (d : List ι) (test : List ι → Nat → Out Bool) (a b : Pat ι β) : M σ (Except Error (Val β)) := do
  let off ← offset
  match ← peekCtx (test d) with
  | .error e => return .error e
  | .ok t => inspectErr (← if t then cn a else cn b) off

/-- `src/ctor/map.rs:230-232` `Map::construct`. -/
def Imp.mapC (q : Pat ι β) (f : Val β → Out (Val β)) : M σ (Except Error (Val β)) := do
  match ← cn q with
  | .error e => return .error e
  | .ok v => peekCtx fun _ => f v

/-- `src/ctor/dthen.rs:217-241` `DynamicCtorThenBuilder::construct`. -/
def Imp.dthenC (d : List ι) (q : Pat ι β) (f : List ι → Nat → Val β → Res (Pat ι β)) :
    M σ (Except Error (Val β)) := guarded do
  let l ← GM.call (cn q)
  let l ← GM.try_ (← GM.processRet l)
  let p ← GM.try_ (← GM.call (moveCtx fun o => f d o l))
  let r ← GM.call (cn p)
  let r ← GM.try_ (← GM.processRet r)
  return .pair l r

/-- `let ret = ctx.try_mat(..)?; handler.invoke(ctx, &ret)`, see `invokeK`. -/
def Imp.invoke (H : Handler ι β σ) (d : List ι) (m : M σ (Except Error Span)) : M σ (Except Error (Val β)) := do
  match ← m with
  | .error e => return .error e
  | .ok s => fun st o => match H d o s st with
    | (.ok b, st') => some (.done (.ok (.base b)) st' o)
    | (.err e, st') => some (.done (.error e) st' o)
    | (.panic, _) => some .panic

end Construct

/-! ## The interpreter made of these bodies -/

section Interp
variable {ι β : Type} [Item ι]

/-- `ctx.try_mat(p)` out of `try_parse`: `src/ctx/regex.rs:443-448` on a plain
context, `src/ctx/policy.rs:154-160` with a policy (`self.inner.try_mat(..)?`
first). -/
def impMat (pr : Option (Pat ι β) → List ι → Pat ι β → M σ (Except Error Span))
    (pol : Option (Pat ι β)) (d : List ι) (p : Pat ι β) : M σ (Except Error Span) :=
  match pol with
  | none => pr none d p
  | some q => do
    match ← pr none d q with
    | .error e => return .error e
    | .ok _ => pr pol d p

/-- `try_parse`, one level. -/
def impStep (G : Rules ι β) (fuel : Nat) (mt : List ι → Pat ι β → M σ (Except Error Span))
    (pr : Pat ι β → M σ (Except Error Span)) (d : List ι) (p : Pat ι β) : M σ (Except Error Span) :=
  match p with
  | .empty => Imp.empty
  | .fail => Imp.fail
  | .start => Imp.start
  | .anchorEnd => Imp.anchorEnd d
  | .consume n => Imp.consume d n
  | .consumeAll => Imp.consumeAll d
  | .lit l => Imp.lit d l
  | .native f => moveCtx (f d)
  | .once u c => Imp.once mt d u c
  | .many1 u c => Imp.many1 mt d u c
  | .optU u c => Imp.optU mt d u c
  | .many0 u c => Imp.many0 mt d u c
  | .between m n u c => Imp.between mt d m n u c
  | .times r u c => Imp.times mt d r u c
  | .thenU u v c => Imp.thenU mt d u v c
  | .assert q value => Imp.assert (mt d) q value
  | .thn a b => Imp.thn (mt d) a b
  | .ifThen a t b => Imp.ifThen (mt d) a t b
  | .pre a b => Imp.pre (mt d) a b
  | .suf a b => Imp.suf (mt d) a b
  | .enclose a b c => Imp.enclose (mt d) a b c
  | .sepOnce a b c => Imp.sepOnce (mt d) a b c
  | .or a b => Imp.or (mt d) a b
  | .longest a b => Imp.longest (mt d) a b
  | .opt q => Imp.opt (mt d) q
  | .choice e items => Imp.choice (mt d) e items
  | .ltm e items => Imp.ltm (mt d) e items
  | .rep q r => Imp.rep (mt d) fuel q r
  | .rep2 q m n => Imp.rep2 (mt d) fuel q m n
  | .collect q min => Imp.collect (mt d) fuel q min
  | .sep q s skip min => Imp.sep (mt d) fuel q s skip min
  | .sep2 q s skip m n => Imp.sep2 (mt d) fuel q s skip m n
  | .sepCollect q s skip min => Imp.sepCollect (mt d) fuel q s skip min
  | .branch test a b => Imp.branch (mt d) d test a b
  -- `src/ctor/map.rs:241-243`
  | .map q _ => mt d q
  -- `src/ctor/pat.rs:150-152`
  | .pat q => mt d q
  | .build q f => Imp.build (mt d) d q f
  -- `src/ctor/dthen.rs:203-205` `unimplemented!`
  | .dthen _ _ => panic_
  -- `Rc<RefCell<Option<P>>>`: `src/regex.rs:225-229`
  | .cell i => match G i with
    | none => return .error .option
    | some q => pr q

/-- `p.try_parse(ctx)` with fuel. -/
def impParse (G : Rules ι β) : Nat → Option (Pat ι β) → List ι → Pat ι β → M σ (Except Error Span)
  | 0 => fun _ _ _ _ _ => none
  | n + 1 => fun pol d p => impStep G n (impMat (impParse G n) pol) (impParse G n pol d) d p

/-- `construct`, one level; `leaf` is `ctx.try_mat(self)`. -/
def impConStep (G : Rules ι β) (H : Handler ι β σ) (fuel : Nat)
    (mt : Pat ι β → M σ (Except Error Span)) (leaf : M σ (Except Error Span))
    (cn : Pat ι β → M σ (Except Error (Val β))) (d : List ι) (p : Pat ι β) :
    M σ (Except Error (Val β)) :=
  match p with
  | .empty | .fail | .start | .anchorEnd | .consume _ | .consumeAll | .lit _ | .native _
  | .once _ _ | .many1 _ _ | .optU _ _ | .many0 _ _ | .between _ _ _ _ | .times _ _ _
  | .thenU _ _ _ | .assert _ _ | .build _ _ => Imp.invoke H d leaf
  | .pat q => Imp.invoke H d (mt q)
  | .thn a b => Imp.thnC cn a b
  | .ifThen a t b => Imp.ifThenC mt cn a t b
  | .pre a b => Imp.preC mt cn a b
  | .suf a b => Imp.sufC mt cn a b
  | .enclose a b c => Imp.encloseC mt cn a b c
  | .sepOnce a b c => Imp.sepOnceC mt cn a b c
  | .or a b => Imp.orC cn a b
  | .longest a b => Imp.longestC cn a b
  | .opt q => Imp.optC cn q
  | .choice e items => Imp.choiceC cn e items
  | .ltm e items => Imp.ltmC cn e items
  | .rep q r => Imp.repC cn fuel q r
  | .rep2 q m n => Imp.rep2C cn fuel q m n
  | .collect q min => Imp.collectC cn fuel q min
  | .sep q s skip min => Imp.sepC mt cn fuel q s skip min
  | .sep2 q s skip m n => Imp.sep2C mt cn fuel q s skip m n
  | .sepCollect q s skip min => Imp.sepCollectC mt cn fuel q s skip min
  | .branch test a b => Imp.branchC cn d test a b
  | .map q f => Imp.mapC cn q f
  | .dthen q f => Imp.dthenC cn d q f
  -- `Rc<RefCell<Option<P>>>`: `src/ctor.rs:137-155, 264-268`
  | .cell i => match G i with
    | none => return .error .option
    | some q => cn q

/-- `p.construct(ctx, handler)` with fuel. -/
def impCon (G : Rules ι β) (H : Handler ι β σ) :
    Nat → Option (Pat ι β) → List ι → Pat ι β → M σ (Except Error (Val β))
  | 0 => fun _ _ _ _ _ => none
  | n + 1 => fun pol d p =>
    impConStep G H n (impMat (impParse G n) pol d) (impMat (impParse G (n + 1)) pol d p)
      (impCon G H n pol d) d p

end Interp

end Neure
