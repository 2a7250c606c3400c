import Verif.Match
/-!
# Building values: `Ctor::construct`

`con G H n pol d p st o` models `p.construct(ctx, handler)` where `ctx` holds data
`d` and offset `o` and the handler is in state `st`.  Sub-patterns that only
delimit (prefix, suffix, separator, open, close, test) are matched through
`ctx.try_mat`; the others are constructed, without going through `ctx.try_mat`.
-/

namespace Neure

variable {ι β σ : Type} [Item ι]

/-- Outcome of `construct`: like `Res`, with the state of the handler. -/
inductive CRes (σ α : Type) where
  | ok (a : α) (st : σ) (off : Nat)
  | err (e : Error) (st : σ) (off : Nat)
  | panic
  deriving DecidableEq, Repr

/-- A handler, `src/ctor.rs:112-130` `Handler::invoke(&mut self, &ctx, &span)`:
sees data, offset and span, may fail and may update its own state. -/
abbrev Handler (ι β σ : Type) := List ι → Nat → Span → σ → Out β × σ

/-- `Extract<&str>` / `Extract<&[u8]>` / `Extract<String>`,
`src/ctor/extract.rs:41-72`: the matched slice (`Span::orig`,
`src/span.rs:60-65`, is the same).  Used by `ctx.ctor`. -/
def extractH : Handler ι (List ι) σ := fun d _ s st => (origSub d s.beg s.len, st)

/-- `Extract<Span>`, `src/ctor/extract.rs:74-82`.  Used by `ctx.ctor_span`. -/
def spanH : Handler ι Span σ := fun _ _ s st => (.ok s, st)

/-- `Extract<()>`, `src/ctor/extract.rs:84-92`. -/
def unitH : Handler ι Unit σ := fun _ _ _ st => (.ok (), st)

/-- Sequencing on the result of a nested `construct`. -/
def caseC {α γ : Type} (r : Option (CRes σ α)) (kOk : α → σ → Nat → Option (CRes σ γ))
    (kErr : Error → σ → Nat → Option (CRes σ γ)) : Option (CRes σ γ) :=
  match r with
  | none => none
  | some .panic => some .panic
  | some (.ok a st o) => kOk a st o
  | some (.err e st o) => kErr e st o

/-- Sequencing on the result of a nested `ctx.try_mat`. -/
def caseM {α γ : Type} (r : Option (Res α)) (kOk : α → Nat → Option (CRes σ γ))
    (kErr : Error → Nat → Option (CRes σ γ)) : Option (CRes σ γ) :=
  match r with
  | none => none
  | some .panic => some .panic
  | some (.ok a o) => kOk a o
  | some (.err e o) => kErr e o

/-- Sequencing on an `Out`. -/
def caseT {α γ : Type} (r : Out α) (kOk : α → Option (CRes σ γ))
    (kErr : Error → Option (CRes σ γ)) : Option (CRes σ γ) :=
  match r with
  | .panic => some .panic
  | .ok a => kOk a
  | .err e => kErr e

/-- `let ret = ctx.try_mat(..)?; handler.invoke(ctx, &ret)`: the `construct` of
every leaf (macros `src/ctor.rs:97-290`, `src/regex/*.rs`, `src/neu/*.rs`,
`src/ctor/pat.rs:137-141`, `src/regex/adapter.rs:473-477`), and
`MatchExt::map_handler`, `src/ctx.rs:437-445`.  Nothing is reset when the
handler fails. -/
def invokeK (H : Handler ι β σ) (d : List ι) (st : σ) (r : Option (Res Span)) :
    Option (CRes σ (Val β)) :=
  caseM r
    (fun s o' => match H d o' s st with
      | (.ok b, st') => some (.ok (.base b) st' o')
      | (.err e, st') => some (.err e st' o')
      | (.panic, _) => some .panic)
    (fun e o' => some (.err e st o'))

section Combinators

variable (cn : Pat ι β → σ → Nat → Option (CRes σ (Val β)))

/-- `r2r` / `r2r_kv`, `src/ctor.rs:983-989`: pair variants return the value
together with the alternative's own value. -/
def tagged (k : Option (Val β)) (v : Val β) : Val β :=
  match k with
  | none => v
  | some k => .pair v k

/-- `src/ctor.rs:912-940` `handler`. -/
def conChoice (e : Error) (beg : Nat) :
    List (Pat ι β × Option (Val β)) → σ → Nat → Option (CRes σ (Val β))
  | [], st, o => some (.err e st o)
  | it :: items, st, o =>
    caseC (cn it.1 st o) (fun v st1 o1 => some (.ok (tagged it.2 v) st1 o1))
      (fun _ st1 _ => conChoice e beg items st1 beg)

/-- `src/ctor.rs:942-973` `handler_ltm`: an alternative replaces the best one
only if the offset it reaches is strictly beyond `stop`, which starts as `beg`;
the offset stays where the last attempt left it. -/
def conLtm (e : Error) (beg : Nat) :
    List (Pat ι β × Option (Val β)) → Option (Val β) → Nat → σ → Nat → Option (CRes σ (Val β))
  | [], none, _, st, o => some (.err e st o)
  | [], some v, _, st, o => some (.ok v st o)
  | it :: items, best, stop, st, _ =>
    caseC (cn it.1 st beg)
      (fun v st1 o1 =>
        if o1 > stop then conLtm e beg items (some (tagged it.2 v)) o1 st1 o1
        else conLtm e beg items best stop st1 o1)
      (fun _ st1 o1 => conLtm e beg items best stop st1 o1)

/-- The repetition loops: `src/ctor/repeat.rs:220-227`,
`src/ctor/repeat2.rs:168-175`, `src/ctor/collect.rs:172-176` (the closure given to
`from_iter`; a `FromIterator` is modelled as the list of the values pulled until
the first `None`).  `room cnt` says whether slot `cnt` of the array exists
(`vals[cnt] = …` of `Repeat2` panics otherwise). -/
def conRep (p : Pat ι β) (more room : Nat → Bool)
    (fin : Nat → List (Val β) → σ → Nat → Option (CRes σ (Val β))) :
    Nat → Nat → List (Val β) → σ → Nat → Option (CRes σ (Val β))
  | 0, _, _, _, _ => none
  | fuel + 1, cnt, vals, st, o =>
    if more cnt then
      caseC (cn p st o)
        (fun v st1 o1 =>
          if room cnt then conRep p more room fin fuel (cnt + 1) (vals ++ [v]) st1 o1
          else some .panic)
        (fun _ st1 o1 => fin cnt vals st1 o1)
    else fin cnt vals st o

/-- The separator loops: `src/ctor/sep.rs:510-519` (`Separate`; it uses
`vals.len()` for `cnt`), `792-805` (`Separate2`). -/
def conSep (ms : Nat → Option (Res Span)) (p : Pat ι β) (skip : Bool) (more room : Nat → Bool)
    (fin : Nat → List (Val β) → σ → Nat → Option (CRes σ (Val β))) :
    Nat → Nat → List (Val β) → σ → Nat → Option (CRes σ (Val β))
  | 0, _, _, _, _ => none
  | fuel + 1, cnt, vals, st, o =>
    if more cnt then
      caseC (cn p st o)
        (fun v st1 o1 => caseM (ms o1)
          (fun _ o2 =>
            if room cnt then conSep ms p skip more room fin fuel (cnt + 1) (vals ++ [v]) st1 o2
            else some .panic)
          (fun _ o2 =>
            if skip then
              if room cnt then fin (cnt + 1) (vals ++ [v]) st1 o2 else some .panic
            else fin cnt vals st1 o2))
        (fun _ st1 o1 => fin cnt vals st1 o1)
    else fin cnt vals st o

/-- The closure given to `from_iter` by `SepCollect`,
`src/ctor/sep.rs:1101-1119`, pulled until it returns `None`.  `fin` is the flag
`end`: after it is set the closure still constructs `p` and matches the
separator once more before it returns `None`. -/
def conSepCollect (ms : Nat → Option (Res Span)) (p : Pat ι β) (skip : Bool)
    (fin : Nat → List (Val β) → σ → Nat → Option (CRes σ (Val β))) :
    Nat → Bool → Nat → List (Val β) → σ → Nat → Option (CRes σ (Val β))
  | 0, _, _, _, _, _ => none
  | fuel + 1, ended, cnt, vals, st, o =>
    caseC (cn p st o)
      (fun v st1 o1 => caseM (ms o1)
        (fun _ o2 =>
          if ended then fin cnt vals st1 o2
          else conSepCollect ms p skip fin fuel false (cnt + 1) (vals ++ [v]) st1 o2)
        (fun _ o2 =>
          if ended then fin cnt vals st1 o2
          else if skip then conSepCollect ms p skip fin fuel true (cnt + 1) (vals ++ [v]) st1 o2
          else fin cnt vals st1 o2))
      (fun _ st1 o1 => fin cnt vals st1 o1)

/-- After the loops: `if ok { Ok(vals) } else { Err(e) }`, resetting the offset
on error. -/
def conFinish (ok : Nat → Bool) (e : Error) (beg : Nat) (wrap : List (Val β) → Val β) (cnt : Nat)
    (vals : List (Val β)) (st : σ) (o : Nat) : Option (CRes σ (Val β)) :=
  if ok cnt then some (.ok (wrap vals) st o) else some (.err e st beg)

/-- The array `[Option<O>; N]` whose first slots hold `vals`. -/
def padded (n : Nat) (vals : List (Val β)) : Val β :=
  Val.list (vals.map .some ++ List.replicate (n - vals.length) .none)

end Combinators

/-- One level of `construct`.  `mt` is `ctx.try_mat`, `leaf` is `ctx.try_mat(self)`,
`cn` is `construct` of the sub-patterns, `fuel` bounds the loops. -/
def conStep (G : Rules ι β) (H : Handler ι β σ) (fuel : Nat)
    (mt : Pat ι β → Nat → Option (Res Span)) (leaf : Option (Res Span))
    (cn : Pat ι β → σ → Nat → Option (CRes σ (Val β)))
    (d : List ι) (p : Pat ι β) (st : σ) (o : Nat) : Option (CRes σ (Val β)) :=
  match p with
  | .empty | .fail | .start | .anchorEnd | .consume _ | .consumeAll | .lit _ | .native _
  | .once _ _ | .many1 _ _ | .optU _ _ | .many0 _ _ | .between _ _ _ _ | .times _ _ _
  | .thenU _ _ _ | .assert _ _ | .build _ _ => invokeK H d st leaf
  -- `src/ctor/pat.rs:137-141`
  | .pat q => invokeK H d st (mt q o)
  -- `src/ctor/then.rs:218-232`
  | .thn a b =>
    caseC (cn a st o)
      (fun v1 st1 o1 => caseC (cn b st1 o1)
        (fun v2 st2 o2 => some (.ok (.pair v1 v2) st2 o2))
        (fun e st2 _ => some (.err e st2 o)))
      (fun e st1 _ => some (.err e st1 o))
  -- `src/ctor/then.rs:453-481`
  | .ifThen a t b =>
    caseC (cn a st o)
      (fun v1 st1 o1 => caseM (mt t o1)
        (fun _ o2 => caseC (cn b st1 o2)
          (fun v2 st2 o3 => some (.ok (.pair v1 (.some v2)) st2 o3))
          (fun e st2 _ => some (.err e st2 o)))
        (fun _ _ => some (.ok (.pair v1 .none) st1 o1)))
      (fun e st1 _ => some (.err e st1 o))
  -- `src/ctor/affix.rs:403-413`
  | .pre a b =>
    caseM (mt a o)
      (fun _ o1 => caseC (cn b st o1)
        (fun v st1 o2 => some (.ok v st1 o2))
        (fun e st1 _ => some (.err e st1 o)))
      (fun e _ => some (.err e st o))
  -- `src/ctor/affix.rs:194-206`
  | .suf a b =>
    caseC (cn a st o)
      (fun v st1 o1 => caseM (mt b o1)
        (fun _ o2 => some (.ok v st1 o2))
        (fun e _ => some (.err e st1 o)))
      (fun e st1 _ => some (.err e st1 o))
  -- `src/ctor/enclose.rs:218-231`
  | .enclose a b c =>
    caseM (mt a o)
      (fun _ o1 => caseC (cn b st o1)
        (fun v st1 o2 => caseM (mt c o2)
          (fun _ o3 => some (.ok v st1 o3))
          (fun e _ => some (.err e st1 o)))
        (fun e st1 _ => some (.err e st1 o)))
      (fun e _ => some (.err e st o))
  -- `src/ctor/sep.rs:221-234`
  | .sepOnce a b c =>
    caseC (cn a st o)
      (fun v1 st1 o1 => caseM (mt b o1)
        (fun _ o2 => caseC (cn c st1 o2)
          (fun v2 st2 o3 => some (.ok (.pair v1 v2) st2 o3))
          (fun e st2 _ => some (.err e st2 o)))
        (fun e _ => some (.err e st1 o)))
      (fun e st1 _ => some (.err e st1 o))
  -- `src/ctor/or.rs:213-228`
  | .or a b =>
    caseC (cn a st o) (fun v st1 o1 => some (.ok v st1 o1))
      (fun _ st1 _ => caseC (cn b st1 o) (fun v st2 o2 => some (.ok v st2 o2))
        (fun e st2 _ => some (.err e st2 o)))
  -- `src/ctor/longest.rs:196-229`: the longer one is the one reaching further
  | .longest a b =>
    caseC (cn a st o)
      (fun l st1 offL => caseC (cn b st1 o)
        (fun r st2 offR => if offL ≥ offR then some (.ok l st2 offL) else some (.ok r st2 offR))
        (fun _ st2 _ => some (.ok l st2 offL)))
      (fun _ st1 _ => caseC (cn b st1 o)
        (fun r st2 offR => some (.ok r st2 offR))
        (fun e st2 _ => some (.err e st2 o)))
  -- `src/ctor/opt.rs:155-169`
  | .opt q =>
    caseC (cn q st o) (fun v st1 o1 => some (.ok (.some v) st1 o1))
      (fun _ st1 _ => some (.ok .none st1 o))
  -- `src/ctor/{array,vec,slice}.rs` via `src/ctor.rs:912-973`
  | .choice e items => conChoice cn e o items st o
  | .ltm e items => conLtm cn e o items none o st o
  -- `src/ctor/repeat.rs:214-239`
  | .rep q r =>
    conRep cn q r.more (fun _ => true) (conFinish r.contains .repeat_ o Val.list) fuel 0 [] st o
  -- `src/ctor/repeat2.rs:161-187`
  | .rep2 q m n =>
    conRep cn q (fun c => decide (c ≤ n)) (fun c => decide (c < n))
      (conFinish (fun c => decide (m ≤ c) && decide (c ≤ n)) .repeat2 o (padded n)) fuel 0 [] st o
  -- `src/ctor/collect.rs:166-188`
  | .collect q min =>
    conRep cn q (fun _ => true) (fun _ => true)
      (conFinish (fun c => decide (c ≥ min)) .collect o Val.list) fuel 0 [] st o
  -- `src/ctor/sep.rs:505-532`
  | .sep q s skip min =>
    conSep cn (mt s) q skip (fun _ => true) (fun _ => true)
      (conFinish (fun c => decide (c ≥ min)) .separate o Val.list) fuel 0 [] st o
  -- `src/ctor/sep.rs:785-818`
  | .sep2 q s skip m n =>
    conSep cn (mt s) q skip (fun c => decide (c ≤ n)) (fun c => decide (c < n))
      (conFinish (fun c => decide (c ≥ m)) .separate2 o (padded n)) fuel 0 [] st o
  -- `src/ctor/sep.rs:1094-1132`
  | .sepCollect q s skip min =>
    conSepCollect cn (mt s) q skip
      (conFinish (fun c => decide (c ≥ min)) .sepCollect o Val.list) fuel false 0 [] st o
  -- `src/ctor/branch.rs:221-238`
  | .branch test a b =>
    caseT (test d o)
      (fun t => caseC (cn (if t then a else b) st o) (fun v st1 o1 => some (.ok v st1 o1))
        (fun e st1 _ => some (.err e st1 o)))
      (fun e => some (.err e st o))
  -- `src/ctor/map.rs:230-232`: nothing is reset when the mapper fails
  | .map q f =>
    caseC (cn q st o)
      (fun v st1 o1 => caseT (f v) (fun w => some (.ok w st1 o1)) (fun e => some (.err e st1 o1)))
      (fun e st1 o1 => some (.err e st1 o1))
  -- `src/ctor/dthen.rs:217-241`: an error of the closure does not reset
  | .dthen q f =>
    caseC (cn q st o)
      (fun v1 st1 o1 => caseM (some (f d o1 v1))
        (fun p' o2 => caseC (cn p' st1 o2)
          (fun v2 st2 o3 => some (.ok (.pair v1 v2) st2 o3))
          (fun e st2 _ => some (.err e st2 o)))
        (fun e o2 => some (.err e st1 o2)))
      (fun e st1 _ => some (.err e st1 o))
  -- `Rc<RefCell<Option<P>>>`: `src/ctor.rs:137-155, 264-268`
  | .cell i => match G i with
    | none => some (.err .option st o)
    | some q => cn q st o

/-- `p.construct(ctx, handler)` with fuel. -/
def con (G : Rules ι β) (H : Handler ι β σ) :
    Nat → Option (Pat ι β) → List ι → Pat ι β → σ → Nat → Option (CRes σ (Val β))
  | 0 => fun _ _ _ _ _ => none
  | n + 1 => fun pol d p st o =>
    conStep G H n (tryMat G n pol d) (tryMat G (n + 1) pol d p o) (con G H n pol d) d p st o

/-- `ctx.ctor_handler(&p, handler)` (`src/ctx.rs:294-300`, hence `ctor_with`,
`ctor_span`, `ctor`) finishes with result `r` (fuel-independent). -/
def Constructs (G : Rules ι β) (H : Handler ι β σ) (pol : Option (Pat ι β)) (d : List ι)
    (p : Pat ι β) (st : σ) (o : Nat) (r : CRes σ (Val β)) : Prop :=
  ∃ n, con G H n pol d p st o = some r

/-- `ctx.map_handler(&p, handler)`, `src/ctx.rs:437-445`, finishes with `r`. -/
def MapHandler (G : Rules ι β) (H : Handler ι β σ) (pol : Option (Pat ι β)) (d : List ι)
    (p : Pat ι β) (st : σ) (o : Nat) (r : CRes σ (Val β)) : Prop :=
  ∃ n, invokeK H d st (tryMat G n pol d p o) = some r

end Neure
