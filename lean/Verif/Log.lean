import Verif.Machine
/-!
# Logging (`src/log.rs`, features `log` and `tracing`)

Almost all the macros of `src/log.rs` evaluate the expression they are given once, print,
and return its value: `trace_retval!`, `debug_regex_beg!`, `debug_regex_stage!`,
`debug_regex_reval!`, `debug_ctor_beg!`, `debug_ctor_stage!` (lines 96-158).  Matching, which
uses only those, is therefore `tryMatM` with and without logging.  The exception is
`debug_ctor_reval!` (lines 160-182): its message contains `$end - $beg`, a `usize`
subtraction that is not there without the features (lines 79-86).  This module is
`construct` in a build with one of the features and messages of level `debug` switched on.

Not modelled: what is printed, and the `Debug` implementations of user types called by it.
-/

namespace Neure

variable {ι β σ : Type} [Item ι]

namespace Log

/-- `debug_ctor_reval!(name, beg, end, ..)`, `src/log.rs:160-182`, then the rest. -/
def reval {γ : Type} (b : Build) (beg stop : Nat) (r : CRes σ γ) : Option (CRes σ γ) :=
  match b.sub stop beg with
  | none => some .panic
  | some _ => some r

/-- `debug_ctor_reval!(name, offset, ctx.offset(), ..); ret`: the message after the position
has been settled. -/
def revalEnd {γ : Type} (b : Build) (beg : Nat) (r : Option (CRes σ γ)) : Option (CRes σ γ) :=
  caseC r (fun v st o => reval b beg o (.ok v st o)) (fun e st o => reval b beg o (.err e st o))

end Log

open Log

/-- One level of `construct` with messages.  The guard of `Then`, `Prefix` and `Suffix`
goes back to the start only when it is dropped, after the message. -/
def conStepLog (b : Build) (G : Rules ι β) (H : Handler ι β σ) (fuel : Nat)
    (mt : Pat ι β → Nat → Option (Res Span)) (leaf : Option (Res Span))
    (cn : Pat ι β → σ → Nat → Option (CRes σ (Val β)))
    (d : List ι) (p : Pat ι β) (st : σ) (o : Nat) : Option (CRes σ (Val β)) :=
  match p with
  -- `src/ctor/then.rs:218-232`
  | .thn x y =>
    caseC (cn x st o)
      (fun v1 st1 o1 => caseC (cn y st1 o1)
        (fun v2 st2 o2 => reval b o o2 (.ok (.pair v1 v2) st2 o2))
        (fun e st2 o2 => reval b o o2 (.err e st2 o)))
      (fun e st1 o1 => reval b o o1 (.err e st1 o))
  -- `src/ctor/then.rs:453-481`: no message when it fails
  | .ifThen x t y =>
    caseC (cn x st o)
      (fun v1 st1 o1 => caseM (mt t o1)
        (fun _ o2 => caseC (cn y st1 o2)
          (fun v2 st2 o3 => reval b o o3 (.ok (.pair v1 (.some v2)) st2 o3))
          (fun e st2 _ => some (.err e st2 o)))
        (fun _ _ => reval b o o1 (.ok (.pair v1 .none) st1 o1)))
      (fun e st1 _ => some (.err e st1 o))
  -- `src/ctor/affix.rs:403-413`: no message when the prefix fails
  | .pre x y =>
    caseM (mt x o)
      (fun _ o1 => caseC (cn y st o1)
        (fun v st1 o2 => reval b o o2 (.ok v st1 o2))
        (fun e st1 o2 => reval b o o2 (.err e st1 o)))
      (fun e _ => some (.err e st o))
  -- `src/ctor/affix.rs:194-206`: no message when the suffix fails
  | .suf x y =>
    caseC (cn x st o)
      (fun v st1 o1 => caseM (mt y o1)
        (fun _ o2 => reval b o o2 (.ok v st1 o2))
        (fun e _ => some (.err e st1 o)))
      (fun e st1 o1 => reval b o o1 (.err e st1 o))
  -- `src/ctor/enclose.rs:218-231`: no message when it fails
  | .enclose x y z =>
    caseM (mt x o)
      (fun _ o1 => caseC (cn y st o1)
        (fun v st1 o2 => caseM (mt z o2)
          (fun _ o3 => reval b o o3 (.ok v st1 o3))
          (fun e _ => some (.err e st1 o)))
        (fun e st1 _ => some (.err e st1 o)))
      (fun e _ => some (.err e st o))
  -- `src/ctor/sep.rs:221-234`: no message when it fails
  | .sepOnce x y z =>
    caseC (cn x st o)
      (fun v1 st1 o1 => caseM (mt y o1)
        (fun _ o2 => caseC (cn z st1 o2)
          (fun v2 st2 o3 => reval b o o3 (.ok (.pair v1 v2) st2 o3))
          (fun e st2 _ => some (.err e st2 o)))
        (fun e _ => some (.err e st1 o)))
      (fun e st1 _ => some (.err e st1 o))
  -- `src/ctor/branch.rs:221-238`: no message when the test fails
  | .branch test x y =>
    caseT (test d o)
      (fun t => revalEnd b o (caseC (cn (if t then x else y) st o) (fun v st1 o1 => some (.ok v st1 o1))
        (fun e st1 _ => some (.err e st1 o))))
      (fun e => some (.err e st o))
  -- `src/ctor/dthen.rs:217-241`: no message when it fails
  | .dthen q f =>
    caseC (cn q st o)
      (fun v1 st1 o1 => caseM (some (f d o1 v1))
        (fun p' o2 => caseC (cn p' st1 o2)
          (fun v2 st2 o3 => reval b o o3 (.ok (.pair v1 v2) st2 o3))
          (fun e st2 _ => some (.err e st2 o)))
        (fun e o2 => some (.err e st1 o2)))
      (fun e st1 _ => some (.err e st1 o))
  -- `src/ctor/or.rs:226`, `longest.rs:227`, `opt.rs:167`, `array.rs:149, 275`, `vec.rs:153,
  -- 324`, `slice.rs:160, 336`, `repeat.rs:237`, `repeat2.rs:185`, `collect.rs:186`,
  -- `sep.rs:530, 816, 1130`: the message comes last
  | .or _ _ | .longest _ _ | .opt _ | .choice _ _ | .ltm _ _ | .rep _ _ | .rep2 _ _ _ | .collect _ _
  | .sep _ _ _ _ | .sep2 _ _ _ _ _ | .sepCollect _ _ _ _ =>
    revalEnd b o (conStepM b G H fuel mt leaf cn d p st o)
  -- no `debug_ctor_reval!`
  | p => conStepM b G H fuel mt leaf cn d p st o

/-- `p.construct(ctx, handler)` in build `b` with messages, with fuel. -/
def conLog (b : Build) (G : Rules ι β) (H : Handler ι β σ) :
    Nat → Option (Pat ι β) → List ι → Pat ι β → σ → Nat → Option (CRes σ (Val β))
  | 0 => fun _ _ _ _ _ => none
  | n + 1 => fun pol d p st o =>
    conStepLog b G H n (tryMatM b G n pol d) (tryMatM b G (n + 1) pol d p o) (conLog b G H n pol d)
      d p st o

/-- `p.construct(ctx, handler)`, compiled with the options `b` and a logging feature, with
messages switched on, finishes with `r`. -/
def ConstructsLogging (b : Build) (G : Rules ι β) (H : Handler ι β σ) (pol : Option (Pat ι β)) (d : List ι)
    (p : Pat ι β) (st : σ) (o : Nat) (r : CRes σ (Val β)) : Prop :=
  ∃ n, conLog b G H n pol d p st o = some r

end Neure
