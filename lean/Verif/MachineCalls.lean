import Verif.Find
import Verif.Machine
/-!
# Calls on a context in an actual build

The methods of a context that compute with `usize` (`Context.lean` and `Find.lean` use
natural numbers there), for a given build, and sequences of such calls.
-/

namespace Neure

set_option linter.unusedSectionVars false

variable {ι β : Type} [Item ι]

/-- The closure in `find`, `src/ctx.rs:501-507`, and `find_all`, `src/ctx.rs:581-587`:
`ctx.inc(1)` is a checked addition (`src/ctx/regex.rs:359-363, 407-411`).  Here, with the
rest of the loop `src/ctx.rs:513-534`, for the handler `Extract<&str>` / `Extract<&[u8]>`
(`src/ctor/extract.rs:41-72`).  First number: fuel. -/
def findM (b : Build) (mt : Nat → Option (Res Span)) (d : List ι) : Nat → Nat → Option (Res (Option (List ι)))
  | 0, _ => none
  | fuel + 1, o =>
    let next (o' : Nat) : Option (Res (Option (List ι))) :=
      opK (b.add o' 1) fun o2 => findM b mt d fuel o2
    if o < blen d then
      caseR (mt o)
        (fun s o' =>
          if s.len ≠ 0 then
            match origSubM b d s.beg s.len with
            | .ok a => some (.ok (some a) o')
            | .err _ => findM b mt d fuel o'
            | .panic => some .panic
          else next o')
        (fun _ o' => next o')
    else some (.ok none o)

/-- A call on a context. -/
inductive CtxCall (ι β : Type) where
  | setOffset (o : Nat)
  | inc (n : Nat)
  | dec (n : Nat)
  | origSub (o len : Nat)
  | origAt (o : Nat)
  | peek
  | tryMat (p : Pat ι β)
  | isMat (p : Pat ι β)
  | tryAssert (p : Pat ι β)
  | policy (p before after : Pat ι β)
  | find (p : Pat ι β)

/-- What a call returns. -/
inductive CtxAnswer (ι : Type) where
  | unit
  | error (e : Error)
  | text (l : List ι)
  | items (l : List (Nat × ι))
  | span (s : Span)
  | bool (t : Bool)
  | found (l : Option (List ι))

/-- An `Out` as the answer of a call that does not move. -/
def answerO {α : Type} (o : Nat) (f : α → CtxAnswer ι) : Out α → Option (Res (CtxAnswer ι))
  | .ok a => some (.ok (f a) o)
  | .err e => some (.ok (.error e) o)
  | .panic => some .panic

/-- A `Res` as the answer of a call. -/
def answerR {α : Type} (f : α → CtxAnswer ι) (r : Option (Res α)) : Option (Res (CtxAnswer ι)) :=
  caseR r (fun a o => some (.ok (f a) o)) (fun e o => some (.ok (.error e) o))

section

variable (b : Build) (G : Rules ι β) (pol : Option (Pat ι β)) (d : List ι)

/-- One call in build `b`, at offset `o`; the result is the answer and the new offset. -/
def callM (n : Nat) (c : CtxCall ι β) (o : Nat) : Option (Res (CtxAnswer ι)) :=
  match c with
  -- `src/ctx/regex.rs:353-357, 401-405`
  | .setOffset o' => some (.ok .unit o')
  -- `src/ctx/regex.rs:359-363, 407-411`
  | .inc k => opK (b.add o k) fun o' => some (.ok .unit o')
  -- `src/ctx/regex.rs:365-369, 413-417`
  | .dec k => opK (b.sub o k) fun o' => some (.ok .unit o')
  -- `src/ctx/regex.rs:375-379, 427-431`
  | .origSub beg len => answerO o .text (origSubM b d beg len)
  -- `src/ctx.rs:74-76`, `src/ctx/regex.rs:419-421`
  | .origAt beg => answerO o .text (origAtM b d beg)
  -- `src/ctx.rs:61-63`
  | .peek => answerO o .items (peekM b d o)
  | .tryMat p => answerR .span (tryMatM b G n pol d p o)
  -- `src/ctx.rs:108-110`
  | .isMat p => caseR (tryMatM b G n pol d p o) (fun _ o' => some (.ok (.bool true) o'))
      (fun _ o' => some (.ok (.bool false) o'))
  -- `src/ctx.rs:267-276`
  | .tryAssert p => caseR (tryMatM b G n pol d p o) (fun _ _ => some (.ok (.bool true) o))
      (fun _ _ => some (.ok (.bool false) o))
  -- `src/ctx/regex.rs:456-467`, `src/ctx/policy.rs:173-184`
  | .policy p before after =>
    answerR .span (caseR (parseM b G n pol d before o)
      (fun _ o1 => caseR (parseM b G n pol d p o1)
        (fun s o2 => caseR (parseM b G n pol d after o2) (fun _ o3 => some (.ok s o3))
          (fun e o3 => some (.err e o3)))
        (fun e o2 => some (.err e o2)))
      (fun e o1 => some (.err e o1)))
  -- `src/ctx.rs:497-534`
  | .find p => answerR .found (findM b (tryMatM b G n pol d p) d n o)

/-- A sequence of calls on one context. -/
def sessionM (n : Nat) : List (CtxCall ι β) → Nat → Option (Res (List (CtxAnswer ι)))
  | [], o => some (.ok [] o)
  | c :: cs, o =>
    caseR (callM b G pol d n c o)
      (fun a o1 => caseR (sessionM n cs o1) (fun l o2 => some (.ok (a :: l) o2))
        (fun e o2 => some (.err e o2)))
      (fun e o1 => some (.err e o1))

/-- The calls `cs`, from offset `o`, finish with `r`: all the answers and the last offset,
or a panic. -/
def SessionOn (cs : List (CtxCall ι β)) (o : Nat) (r : Res (List (CtxAnswer ι))) : Prop :=
  ∃ n, sessionM b G pol d n cs o = some r

end

end Neure
