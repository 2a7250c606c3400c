import Verif.Den
/-!
# Searching: `find`, `find_all`, `match_seq` (`src/ctx.rs`, trait `MatchMulti`)

and the other context-level helpers of `src/ctx.rs` built on `try_mat`:
`is_mat`, `try_assert`/`assert`, `try_mat_policy`, `try_mat_before`,
`try_mat_after`.
-/

namespace Neure

set_option linter.unusedSectionVars false

variable {ι β : Type} [Item ι]

/-- A result processor `FnMut(&mut C, Result<Span, Error>) -> Option<Span>`
(second argument of `find_with`): gets the result of `try_mat` and the offset,
returns the span to report (if any) and the new offset. -/
abbrev Processor := Except Error Span → Nat → Option Span × Nat

/-- The closure in `find`, `src/ctx.rs:501-507`, and `find_all`,
`src/ctx.rs:581-587`. -/
def findProc : Processor
  | .ok s, o => if s.len ≠ 0 then (some s, o) else (none, o + 1)
  | .error _, o => (none, o + 1)

/-- The closure in `match_seq`, `src/ctx.rs:633-639`; `len` is `ctx.len()`. -/
def seqProc (len : Nat) : Processor
  | .ok s, o => if s.len ≠ 0 then (some s, o) else (none, len)
  | .error _, _ => (none, len)

/-- The body of the loop after `try_mat` returned: `func`, then the handler
`map.invoke`, whose error means "go on" (`src/ctx.rs:525-531, 663-669`). -/
def findBody {α : Type} (func : Processor) (h : Span → Out α)
    (loop : Nat → Option (Res (Option α))) (ret : Except Error Span) (o : Nat) :
    Option (Res (Option α)) :=
  match func ret o with
  | (none, o2) => loop o2
  | (some s, o2) => match h s with
    | .ok a => some (.ok (some a) o2)
    | .err _ => loop o2
    | .panic => some .panic

/-- `find_with`, `src/ctx.rs:513-534`; also one call of `next()` on the
iterator of `find_all_with`, `src/ctx.rs:655-672` (the same loop).  `mt` is
`ctx.try_mat(&pat)`, `len` is `ctx.len()`, `h` the handler applied to the
current input.  First number: fuel; second: offset. -/
def findLoop {α : Type} (mt : Nat → Option (Res Span)) (len : Nat) (func : Processor)
    (h : Span → Out α) : Nat → Nat → Option (Res (Option α))
  | 0, _ => none
  | fuel + 1, o =>
    if o < len then
      caseR (mt o) (fun s o' => findBody func h (findLoop mt len func h fuel) (.ok s) o')
        (fun e o' => findBody func h (findLoop mt len func h fuel) (.error e) o')
    else some (.ok none o)

/-- `k` calls of `next()` on the iterator returned by `find_all_with`
(`src/ctx.rs:645-673`, `core::iter::from_fn`): the items returned (including
the `None`s) and the final offset. -/
def nextCalls {α : Type} (next : Nat → Option (Res (Option α))) :
    Nat → Nat → Option (Res (List (Option α)))
  | 0, o => some (.ok [] o)
  | k + 1, o =>
    caseR (next o) (fun a o' => caseR (nextCalls next k o') (fun l o'' => some (.ok (a :: l) o''))
      (fun e o'' => some (.err e o''))) (fun e o' => some (.err e o'))

/-- Draining the iterator (`collect`, `for`): call `next()` until it returns
`None`. -/
def drain {α : Type} (next : Nat → Option (Res (Option α))) :
    Nat → Nat → Option (Res (List α))
  | 0, _ => none
  | k + 1, o =>
    caseR (next o)
      (fun a o' => match a with
        | none => some (.ok [] o')
        | some a => caseR (drain next k o') (fun l o'' => some (.ok (a :: l) o''))
            (fun e o'' => some (.err e o'')))
      (fun e o' => some (.err e o'))

/-- The handlers `Extract<O>` of `src/ctor/extract.rs:41-92`. -/
inductive Extract (ι : Type) : Type → Type 1 where
  /-- `Extract<Span>`, lines 74-82. -/
  | span : Extract ι Span
  /-- `Extract<()>`, lines 84-92. -/
  | unit : Extract ι Unit
  /-- `Extract<&str>`, `Extract<&[u8]>`, `Extract<String>`, lines 41-72:
  `ctx.orig_sub(span.beg(), span.len())`. -/
  | slice : Extract ι (List ι)

/-- `Extract::invoke`. -/
def Extract.invoke {α : Type} : Extract ι α → List ι → Span → Out α
  | .span, _, s => .ok s
  | .unit, _, _ => .ok ()
  | .slice, d, s => origSub d s.beg s.len

section Searches

variable {α : Type} (G : Rules ι β) (pol : Option (Pat ι β)) (d : List ι) (p : Pat ι β)

/-- `ctx.find::<O>(p)`, `src/ctx.rs:497-510`. -/
def find (x : Extract ι α) (n : Nat) (o : Nat) : Option (Res (Option α)) :=
  findLoop (tryMat G n pol d p) (blen d) findProc (x.invoke d) n o

/-- `ctx.find_all::<O>(p)`, `src/ctx.rs:577-590`, drained. -/
def findAll (x : Extract ι α) (n : Nat) (o : Nat) : Option (Res (List α)) :=
  drain (find G pol d p x n) n o

/-- One `next()` of `ctx.match_seq::<O>(p)`, `src/ctx.rs:629-642`. -/
def seqNext (x : Extract ι α) (n : Nat) (o : Nat) : Option (Res (Option α)) :=
  findLoop (tryMat G n pol d p) (blen d) (seqProc (blen d)) (x.invoke d) n o

/-- `ctx.match_seq::<O>(p)`, drained. -/
def matchSeq (x : Extract ι α) (n : Nat) (o : Nat) : Option (Res (List α)) :=
  drain (seqNext G pol d p x n) n o

/-- `ctx.find(p)` at offset `o` returns with result `r`. -/
def Finds (x : Extract ι α) (o : Nat) (r : Res (Option α)) : Prop :=
  ∃ n, find G pol d p x n o = some r

/-- Draining `ctx.find_all(p)` from offset `o` returns with result `r`. -/
def FindsAll (x : Extract ι α) (o : Nat) (r : Res (List α)) : Prop :=
  ∃ n, findAll G pol d p x n o = some r

/-- `next()` on `ctx.match_seq(p)` at offset `o` returns with result `r`. -/
def SeqNext (x : Extract ι α) (o : Nat) (r : Res (Option α)) : Prop :=
  ∃ n, seqNext G pol d p x n o = some r

/-- Draining `ctx.match_seq(p)` from offset `o` returns with result `r`. -/
def MatchSeqs (x : Extract ι α) (o : Nat) (r : Res (List α)) : Prop :=
  ∃ n, matchSeq G pol d p x n o = some r

/-- `k` calls of `next()` on `ctx.find_all(p)` return with result `r`. -/
def FindAllCalls (x : Extract ι α) (k : Nat) (o : Nat) (r : Res (List (Option α))) : Prop :=
  ∃ n, nextCalls (find G pol d p x n) k o = some r

end Searches

section Helpers

variable (G : Rules ι β) (pol : Option (Pat ι β)) (d : List ι)

/-- `ctx.is_mat(p)`, `src/ctx.rs:108-110`: `try_mat(p).is_ok()`. -/
def isMat (p : Pat ι β) (n : Nat) (o : Nat) : Option (Res Bool) :=
  caseR (tryMat G n pol d p o) (fun _ o' => some (.ok true o')) (fun _ o' => some (.ok false o'))

/-- `ctx.try_assert(p)`, `src/ctx.rs:267-276`. -/
def tryAssert (p : Pat ι β) (n : Nat) (o : Nat) : Option (Res Bool) :=
  caseR (tryMat G n pol d p o) (fun _ _ => some (.ok true o)) (fun _ _ => some (.ok false o))

/-- `ctx.try_mat_policy(p, before, after)`: `src/ctx/regex.rs:456-467`,
`src/ctx/policy.rs:173-184`.  All three are `try_parse`d (not `try_mat`ched), and
nothing is reset on failure. -/
def tryMatPolicy (p before after : Pat ι β) (n : Nat) (o : Nat) : Option (Res Span) :=
  caseR (parse G n pol d before o)
    (fun _ o1 => caseR (parse G n pol d p o1)
      (fun s o2 => caseR (parse G n pol d after o2) (fun _ o3 => some (.ok s o3))
        (fun e o3 => some (.err e o3)))
      (fun e o2 => some (.err e o2)))
    (fun e o1 => some (.err e o1))

/-- `ctx.try_mat_before(p, before)`, `src/ctx.rs:162-168`; the no-op `after` is
`|_| Ok(Span::default())`, represented by a closure pattern. -/
def tryMatBefore (p before : Pat ι β) (n : Nat) (o : Nat) : Option (Res Span) :=
  tryMatPolicy G pol d p before (.native fun _ o => .ok ⟨0, 0⟩ o) n o

/-- `ctx.try_mat_after(p, after)`, `src/ctx.rs:176-182`. -/
def tryMatAfter (p after : Pat ι β) (n : Nat) (o : Nat) : Option (Res Span) :=
  tryMatPolicy G pol d p (.native fun _ o => .ok ⟨0, 0⟩ o) after n o

end Helpers

end Neure
