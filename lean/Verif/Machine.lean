import Verif.Ctor
/-!
# `usize` arithmetic: matching and building values in an actual build

`Match.lean` and `Ctor.lean` compute with natural numbers.  A compiled program computes
with `usize`: what `+`, `-` and `*` do when the result does not fit depends on the build
(`overflow-checks`: panic; otherwise wrap around), and `debug_assert!` is only there with
`debug-assertions`.  This module is the evaluator again, for a given build, with every
addition, subtraction and multiplication of the code made explicit, in the order of the
code.  Constructors without arithmetic are those of `Match.lean` and `Ctor.lean`.
Simplifications: a 64-bit target; the counter inside `char_indices`/`BytesIndices`
(`src/iter/byte.rs:32`, below the length of the slice) is not checked.
-/

namespace Neure

variable {ι β σ : Type} [Item ι]

/-- Compiler options (not a function of the crate): `-C overflow-checks`,
`-C debug-assertions`. -/
structure Build where
  overflowChecks : Bool
  debugAssertions : Bool
  deriving DecidableEq, Repr

/-- `cargo build`. -/
def Build.dev : Build := ⟨true, true⟩

/-- `cargo build --release`. -/
def Build.release : Build := ⟨false, false⟩

/-- `2^64`. -/
def wordSize : Nat := 2 ^ 64

namespace Build

/-- `x + y` on `usize`; `none` is the panic. -/
def add (b : Build) (x y : Nat) : Option Nat :=
  if x + y < wordSize then some (x + y)
  else if b.overflowChecks then none else some ((x + y) % wordSize)

/-- `x - y` on `usize`. -/
def sub (b : Build) (x y : Nat) : Option Nat :=
  if y ≤ x then some (x - y)
  else if b.overflowChecks then none else some ((x + wordSize - y) % wordSize)

/-- `x * y` on `usize`. -/
def mul (b : Build) (x y : Nat) : Option Nat :=
  if x * y < wordSize then some (x * y)
  else if b.overflowChecks then none else some ((x * y) % wordSize)

end Build

/-- `src/span.rs:50-54` `Span::add_assign`: the assertion, then
`self.len += other.len + other.beg - (self.beg + self.len)`. -/
def Span.addAssignM (b : Build) (s o : Span) : Option Span :=
  if b.debugAssertions && !decide (o.beg ≥ s.beg) then none
  else (b.add o.len o.beg).bind fun t1 => (b.add s.beg s.len).bind fun t2 =>
    (b.sub t1 t2).bind fun t3 => (b.add s.len t3).map fun t4 => ⟨s.beg, t4⟩

/-- A `usize` operation, then the rest of the computation. -/
def opK {γ : Type} (r : Option Nat) (k : Nat → Option (Res γ)) : Option (Res γ) :=
  match r with
  | none => some .panic
  | some v => k v

/-- `dat.get(beg..end)` of std. -/
def getRange (d : List ι) (beg stop : Nat) : Option (List ι) :=
  if beg ≤ stop then (dropB d beg).bind fun l => takeB l (stop - beg) else none

/-- `Context::orig_sub`, `src/ctx/regex.rs:375-379, 427-431`. -/
def origSubM (b : Build) (d : List ι) (o len : Nat) : Out (List ι) :=
  match b.add o len with
  | none => .panic
  | some e => match getRange d o e with
    | none => .err .outOfBound
    | some r => .ok r

/-- `Context::orig_at`: `src/ctx.rs:74-76` for `[u8]`, `src/ctx/regex.rs:419-421` for
`str`. -/
def origAtM (b : Build) (d : List ι) (o : Nat) : Out (List ι) :=
  if Item.strict ι then
    match b.sub (blen d) o with
    | none => .panic
    | some len => origSubM b d o len
  else match dropB d o with
    | some l => .ok l
    | none => .err .outOfBound

/-- `Context::peek`, `src/ctx.rs:61-63`, `src/ctx/regex.rs:371-373, 423-425`. -/
def peekM (b : Build) (d : List ι) (o : Nat) : Out (List (Nat × ι)) :=
  match origAtM b d o with
  | .ok l => .ok (indices 0 l)
  | .err e => .err e
  | .panic => .panic

/-- `src/neu.rs:708-711` `calc_length`. -/
def calcLengthM (b : Build) (beg stop : Option Nat) (remaining : Nat) : Option Nat :=
  match beg with
  | none => some 0
  | some v => b.sub (stop.getD remaining) v

/-- `src/ctx.rs:679-684` `new_span_inc`, with `inc` of `src/ctx/regex.rs:359-363,
407-411`. -/
def spanIncM (b : Build) (o len : Nat) : Option (Res Span) :=
  opK (b.add o len) fun o' => some (.ok ⟨o, len⟩ o')

/-- `new_span_inc(ctx, calc_length(..))`. -/
def spanM (b : Build) (o : Nat) (len : Option Nat) : Option (Res Span) :=
  opK len fun l => spanIncM b o l

/-- `ctx.len() - ctx.offset()`, then the rest. -/
def remM {γ : Type} (b : Build) (d : List ι) (o : Nat) (k : Nat → Option (Res γ)) :
    Option (Res γ) := opK (b.sub (blen d) o) k

/-- `s.add_assign(t)`, then the rest. -/
def addM {γ : Type} (b : Build) (s t : Span) (k : Span → Option (Res γ)) : Option (Res γ) :=
  match s.addAssignM b t with
  | none => some .panic
  | some s' => k s'

section Leaves

/-- `NeuCond::check`, `src/neu/cond.rs:57-61, 71-73, 122-128`: the position of the clone
is `ctx.offset() + item.0`. -/
def checkM (b : Build) (mt : List ι → Pat ι β → Nat → Option (Res Span)) (d : List ι) (o : Nat)
    (c : Cond ι β) (pr : Nat × ι) : Option (Out Bool) :=
  match c with
  | .empty => some (.ok true)
  | .fn f => some (f d o pr)
  | .regex p =>
    match b.add o pr.1 with
    | none => some .panic
    | some at_ =>
      match origAtM b d at_ with
      | .panic => some .panic
      | .err e => some (.err e)
      | .ok d' =>
        match mt d' p 0 with
        | none => none
        | some .panic => some .panic
        | some (.ok _ _) => some (.ok true)
        | some (.err _ _) => some (.ok false)

/-- `unit.is_match(&item) && cond.check(ctx, &pair)?`. -/
def testItemM (b : Build) (mt : List ι → Pat ι β → Nat → Option (Res Span)) (d : List ι)
    (o : Nat) (u : Neu ι) (c : Cond ι β) (pr : Nat × ι) : Option (Out Bool) :=
  if u.isMatch pr.2 then checkM b mt d o c pr else some (.ok false)

/-- The counting loops of `Between` (`src/neu/times.rs:235-248`) and `Times`
(`src/neu/times.rs:457-470`): `cnt += 1` is checked. -/
def scanM (b : Build) (test : Nat × ι → Option (Out Bool)) (more : Nat → Bool) :
    Nat → Option Nat → List (Nat × ι) → Option (Out (Scan ι))
  | cnt, beg, [] => some (.ok ⟨cnt, beg, none, []⟩)
  | cnt, beg, pr :: it =>
    if more cnt then
      match test pr with
      | none => none
      | some .panic => some .panic
      | some (.err e) => some (.err e)
      | some (.ok true) =>
        match b.add cnt 1 with
        | none => some .panic
        | some cnt' => scanM b test more cnt' (beg.or (some pr.1)) it
      | some (.ok false) => some (.ok ⟨cnt, beg, some pr.1, it⟩)
    else some (.ok ⟨cnt, beg, none, pr :: it⟩)

variable (b : Build) (mt : List ι → Pat ι β → Nat → Option (Res Span))

/-- `src/neu/once.rs:185-200` `Once::try_parse`. -/
def onceM (d : List ι) (u : Neu ι) (c : Cond ι β) (o : Nat) : Option (Res Span) :=
  caseO (some (peekM b d o))
    (fun it => remM b d o fun rem =>
      match it with
      | [] => some (.err .once o)
      | pr :: it' =>
        caseO (testItemM b mt d o u c pr)
          (fun t => if t then spanM b o (calcLengthM b (some pr.1) (it'.head?.map (·.1)) rem)
            else some (.err .once o))
          (fun e => some (.err e o)))
    (fun e => some (.err e o))

/-- `src/neu/opt.rs:196-211` `Opt::try_parse`. -/
def optUM (d : List ι) (u : Neu ι) (c : Cond ι β) (o : Nat) : Option (Res Span) :=
  remM b d o fun rem =>
    caseO (some (peekM b d o))
      (fun it =>
        match it with
        | [] => some (.ok ⟨o, 0⟩ o)
        | pr :: it' =>
          caseO (testItemM b mt d o u c pr)
            (fun t => if t then spanM b o (calcLengthM b (some pr.1) (it'.head?.map (·.1)) rem)
              else some (.ok ⟨o, 0⟩ o))
            (fun e => some (.err e o)))
      (fun _ => some (.ok ⟨o, 0⟩ o))

/-- `src/neu/opt.rs:392-416` `Many0::try_parse` (which does not count: `scan`). -/
def many0M (d : List ι) (u : Neu ι) (c : Cond ι β) (o : Nat) : Option (Res Span) :=
  remM b d o fun rem =>
    caseO (some (peekM b d o))
      (fun it =>
        caseO (scan (testItemM b mt d o u c) (fun _ => true) 0 none it)
          (fun s => match s.beg with
            | none => some (.ok ⟨o, 0⟩ o)
            | some v => spanM b o (calcLengthM b (some v) s.stop rem))
          (fun e => some (.err e o)))
      (fun _ => some (.ok ⟨o, 0⟩ o))

/-- `src/neu/once.rs:379-403` `Many1::try_parse` (which does not count). -/
def many1M (d : List ι) (u : Neu ι) (c : Cond ι β) (o : Nat) : Option (Res Span) :=
  caseO (some (peekM b d o))
    (fun it => remM b d o fun rem =>
      caseO (scan (testItemM b mt d o u c) (fun _ => true) 0 none it)
        (fun s => match s.beg with
          | none => some (.err .many1 o)
          | some v => spanM b o (calcLengthM b (some v) s.stop rem))
        (fun e => some (.err e o)))
    (fun e => some (.err e o))

/-- `src/neu/times.rs:224-257` `Between::try_parse`. -/
def betweenM (d : List ι) (m n : Nat) (u : Neu ι) (c : Cond ι β) (o : Nat) :
    Option (Res Span) :=
  caseO (some (peekM b d o))
    (fun it => remM b d o fun rem => opK (b.mul m u.minLength) fun need =>
      if rem ≥ need then
        caseO (scanM b (testItemM b mt d o u c) (fun cnt => decide (cnt < n)) 0 none it)
          (fun s =>
            if s.cnt ≥ m then
              spanM b o (calcLengthM b s.beg (s.stop.or (s.rest.head?.map (·.1))) rem)
            else some (.err .between o))
          (fun e => some (.err e o))
      else some (.err .between o))
    (fun e => some (.err e o))

/-- The closure `min_length` of `Times::try_parse`, `src/neu/times.rs:449-453`. -/
def neededM (r : CRange) (minLength : Nat) : Option Nat :=
  match r.lo with
  | .incl m => b.mul m minLength
  | .excl m => b.mul (m - 1) minLength
  | .unb => some 0

/-- `src/neu/times.rs:430-479` `Times::try_parse`. -/
def timesM (d : List ι) (r : CRange) (u : Neu ι) (c : Cond ι β) (o : Nat) :
    Option (Res Span) :=
  caseO (some (peekM b d o))
    (fun it => remM b d o fun rem => opK (neededM b r u.minLength) fun need =>
      if rem ≥ need then
        caseO (scanM b (testItemM b mt d o u c) r.more 0 none it)
          (fun s =>
            if r.contains s.cnt then
              spanM b o (calcLengthM b s.beg (s.stop.or (s.rest.head?.map (·.1))) rem)
            else some (.err .times o))
          (fun e => some (.err e o))
      else some (.err .times o))
    (fun e => some (.err e o))

/-- `src/neu/then.rs:204-223` `NeureThen::try_parse`. -/
def thenUM (d : List ι) (u v : Neu ι) (c : Cond ι β) (o : Nat) : Option (Res Span) :=
  caseO (some (peekM b d o))
    (fun it => remM b d o fun rem => opK (b.add u.minLength v.minLength) fun need =>
      if rem ≥ need then
        match it with
        | fst :: snd :: it' =>
          caseO (testItemM b mt d o u c fst)
            (fun t => if t then
                caseO (testItemM b mt d o v c snd)
                  (fun t' =>
                    if t' then spanM b o (calcLengthM b (some fst.1) (it'.head?.map (·.1)) rem)
                    else some (.err .neureThen o))
                  (fun e => some (.err e o))
              else some (.err .neureThen o))
            (fun e => some (.err e o))
        | _ => some (.err .neureThen o)
      else some (.err .neureThen o))
    (fun e => some (.err e o))

/-- `src/regex/literal.rs:104-114` `Literal::try_parse`. -/
def litM (d : List ι) (l : List ι) (o : Nat) : Option (Res Span) :=
  remM b d o fun rem =>
    if rem ≥ blen l then
      caseO (some (origAtM b d o))
        (fun rest => if l.isPrefixOf rest then spanIncM b o (blen l) else some (.err .literal o))
        (fun e => some (.err e o))
    else some (.err .literal o)

/-- `src/regex/consume.rs:76-87` `Consume::try_parse`. -/
def consumeM (d : List ι) (n o : Nat) : Option (Res Span) :=
  remM b d o fun rem => if rem ≥ n then spanIncM b o n else some (.err .consume o)

end Leaves

section Combinators

variable (b : Build) (mt : Pat ι β → Nat → Option (Res Span))

/-- The repetition loops: `src/ctor/repeat.rs:254-261`,
`src/ctor/repeat2.rs:203-210`, `src/ctor/collect.rs:204-207`: `add_assign`, then
`cnt += 1`. -/
def repM (p : Pat ι β) (more : Nat → Bool) (fin : Nat → Span → Nat → Option (Res Span)) :
    Nat → Nat → Span → Nat → Option (Res Span)
  | 0, _, _, _ => none
  | fuel + 1, cnt, total, o =>
    if more cnt then
      caseR (mt p o)
        (fun s o' => addM b total s fun total' => opK (b.add cnt 1) fun cnt' =>
          repM p more fin fuel cnt' total' o')
        (fun _ o' => fin cnt total o')
    else fin cnt total o

/-- The separator loops: `src/ctor/sep.rs:549-562` (`Separate`), `835-852`
(`Separate2`), `1149-1162` (`SepCollect`). -/
def sepM (p s : Pat ι β) (skip : Bool) (more : Nat → Bool)
    (fin : Nat → Span → Nat → Option (Res Span)) :
    Nat → Nat → Span → Nat → Option (Res Span)
  | 0, _, _, _ => none
  | fuel + 1, cnt, total, o =>
    if more cnt then
      caseR (mt p o)
        (fun ps o' =>
          caseR (mt s o')
            (fun ss o'' => opK (b.add cnt 1) fun cnt' =>
              addM b total ps fun t1 => addM b t1 ss fun t2 =>
                sepM p s skip more fin fuel cnt' t2 o'')
            (fun _ o'' =>
              if skip then opK (b.add cnt 1) fun cnt' => addM b total ps fun t1 => fin cnt' t1 o''
              else fin cnt total o''))
        (fun _ o' => fin cnt total o')
    else fin cnt total o

end Combinators

/-- One level of `try_parse` in build `b`: as `step` of `Match.lean` (where the lines
cited for each constructor are), with the arithmetic of the build. -/
def stepM (b : Build) (G : Rules ι β) (fuel : Nat)
    (mt : List ι → Pat ι β → Nat → Option (Res Span)) (pr : Pat ι β → Nat → Option (Res Span))
    (d : List ι) (p : Pat ι β) (o : Nat) : Option (Res Span) :=
  match p with
  -- `src/regex/anchor.rs:75-85, 176-186`
  | .start => if o = 0 then spanIncM b o 0 else some (.err .anchorStart o)
  | .anchorEnd => if o = blen d then spanIncM b o 0 else some (.err .anchorEnd o)
  | .consume n => consumeM b d n o
  -- `src/regex/consume.rs:173-180` (`saturating_sub`)
  | .consumeAll => spanIncM b o (blen d - o)
  | .lit l => litM b d l o
  | .once u c => onceM b mt d u c o
  | .many1 u c => many1M b mt d u c o
  | .optU u c => optUM b mt d u c o
  | .many0 u c => many0M b mt d u c o
  | .between m n u c => betweenM b mt d m n u c o
  | .times r u c => timesM b mt d r u c o
  | .thenU u v c => thenUM b mt d u v c o
  -- `src/ctor/then.rs:242-251`, `src/ctor/affix.rs:423-436, 216-228`
  | .thn x y | .pre x y | .suf x y =>
    caseR (mt d x o)
      (fun s1 o1 => caseR (mt d y o1)
        (fun s2 o2 => addM b s1 s2 fun s => some (.ok s o2))
        (fun e _ => some (.err e o)))
      (fun e _ => some (.err e o))
  -- `src/ctor/then.rs:492-511`
  | .ifThen x t y =>
    caseR (mt d x o)
      (fun s1 o1 => caseR (mt d t o1)
        (fun s2 o2 => addM b s1 s2 fun s12 => caseR (mt d y o2)
          (fun s3 o3 => addM b s12 s3 fun s => some (.ok s o3))
          (fun e _ => some (.err e o)))
        (fun _ _ => some (.ok s1 o1)))
      (fun e _ => some (.err e o))
  -- `src/ctor/enclose.rs:241-259`
  | .enclose x y z =>
    caseR (mt d x o)
      (fun s1 o1 => caseR (mt d y o1)
        (fun s2 o2 => addM b s1 s2 fun s12 => caseR (mt d z o2)
          (fun s3 o3 => addM b s12 s3 fun s => some (.ok s o3))
          (fun e _ => some (.err e o)))
        (fun e _ => some (.err e o)))
      (fun e _ => some (.err e o))
  -- `src/ctor/sep.rs:245-254`
  | .sepOnce x y z =>
    caseR (mt d x o)
      (fun s1 o1 => addM b ⟨o, 0⟩ s1 fun t1 => caseR (mt d y o1)
        (fun s2 o2 => addM b t1 s2 fun t2 => caseR (mt d z o2)
          (fun s3 o3 => addM b t2 s3 fun s => some (.ok s o3))
          (fun e _ => some (.err e o)))
        (fun e _ => some (.err e o)))
      (fun e _ => some (.err e o))
  -- `src/ctor/longest.rs:239-261`
  | .longest x y =>
    let pick (s : Span) : Option (Res Span) := opK (b.add o s.len) fun o' => some (.ok s o')
    caseR (mt d x o)
      (fun l _ => caseR (mt d y o)
        (fun r _ => if l.len ≥ r.len then pick l else pick r)
        (fun _ _ => pick l))
      (fun _ _ => caseR (mt d y o) (fun r _ => pick r) (fun e _ => some (.err e o)))
  -- `src/ctor/repeat.rs:248-272`
  | .rep q r => repM b (mt d) q r.more (finish r.contains .repeat_ o) fuel 0 ⟨o, 0⟩ o
  -- `src/ctor/repeat2.rs:196-221`
  | .rep2 q m n =>
    repM b (mt d) q (fun c => decide (c ≤ n))
      (finish (fun c => decide (m ≤ c) && decide (c ≤ n)) .repeat2 o) fuel 0 ⟨o, 0⟩ o
  -- `src/ctor/collect.rs:197-218`
  | .collect q min =>
    repM b (mt d) q (fun _ => true) (finish (fun c => decide (c ≥ min)) .collect o) fuel 0 ⟨o, 0⟩ o
  -- `src/ctor/sep.rs:542-573`
  | .sep q s skip min =>
    sepM b (mt d) q s skip (fun _ => true) (finish (fun c => decide (c ≥ min)) .separate o)
      fuel 0 ⟨o, 0⟩ o
  -- `src/ctor/sep.rs:828-863`
  | .sep2 q s skip m n =>
    sepM b (mt d) q s skip (fun c => decide (c ≤ n))
      (finish (fun c => decide (c ≥ m)) .separate2 o) fuel 0 ⟨o, 0⟩ o
  -- `src/ctor/sep.rs:1142-1173`
  | .sepCollect q s skip min =>
    sepM b (mt d) q s skip (fun _ => true) (finish (fun c => decide (c ≥ min)) .sepCollect o)
      fuel 0 ⟨o, 0⟩ o
  -- no arithmetic
  | p => step G fuel mt pr d p o

/-- `p.try_parse(ctx)` in build `b`, with fuel. -/
def parseM (b : Build) (G : Rules ι β) :
    Nat → Option (Pat ι β) → List ι → Pat ι β → Nat → Option (Res Span)
  | 0 => fun _ _ _ _ => none
  | n + 1 => fun pol d p o =>
    stepM b G n (matWith (parseM b G n) pol) (parseM b G n pol d) d p o

/-- `ctx.try_mat(&p)` in build `b`, with fuel. -/
def tryMatM (b : Build) (G : Rules ι β) (n : Nat) (pol : Option (Pat ι β)) (d : List ι)
    (p : Pat ι β) (o : Nat) : Option (Res Span) := matWith (parseM b G n) pol d p o

/-- `ctx.try_mat(&p)`, compiled with the options `b`, finishes with `r`. -/
def RunsOn (b : Build) (G : Rules ι β) (pol : Option (Pat ι β)) (d : List ι) (p : Pat ι β)
    (o : Nat) (r : Res Span) : Prop := ∃ n, tryMatM b G n pol d p o = some r

/-! ## Building values -/

/-- `Extract<&str>` / `Extract<&[u8]>`, `src/ctor/extract.rs:41-72`, in build `b`. -/
def extractM (b : Build) : Handler ι (List ι) σ := fun d _ s st => (origSubM b d s.beg s.len, st)

/-- `cnt += 1`, then the rest. -/
def countK {γ : Type} (b : Build) (cnt : Nat) (k : Nat → Option (CRes σ γ)) : Option (CRes σ γ) :=
  match b.add cnt 1 with
  | none => some .panic
  | some c => k c

section Combinators

variable (b : Build) (cn : Pat ι β → σ → Nat → Option (CRes σ (Val β)))

/-- `src/ctor/repeat.rs:220-227`, `src/ctor/repeat2.rs:168-175`,
`src/ctor/collect.rs:172-176`, as `conRep` with `cnt += 1` checked. -/
def conRepM (p : Pat ι β) (more room : Nat → Bool)
    (fin : Nat → List (Val β) → σ → Nat → Option (CRes σ (Val β))) :
    Nat → Nat → List (Val β) → σ → Nat → Option (CRes σ (Val β))
  | 0, _, _, _, _ => none
  | fuel + 1, cnt, vals, st, o =>
    if more cnt then
      caseC (cn p st o)
        (fun v st1 o1 =>
          if room cnt then countK b cnt fun cnt' =>
            conRepM p more room fin fuel cnt' (vals ++ [v]) st1 o1
          else some .panic)
        (fun _ st1 o1 => fin cnt vals st1 o1)
    else fin cnt vals st o

/-- `src/ctor/sep.rs:792-805` (`Separate2`), as `conSep` with `cnt += 1` checked. -/
def conSepM (ms : Nat → Option (Res Span)) (p : Pat ι β) (skip : Bool) (more room : Nat → Bool)
    (fin : Nat → List (Val β) → σ → Nat → Option (CRes σ (Val β))) :
    Nat → Nat → List (Val β) → σ → Nat → Option (CRes σ (Val β))
  | 0, _, _, _, _ => none
  | fuel + 1, cnt, vals, st, o =>
    if more cnt then
      caseC (cn p st o)
        (fun v st1 o1 => caseM (ms o1)
          (fun _ o2 =>
            if room cnt then countK b cnt fun cnt' =>
              conSepM ms p skip more room fin fuel cnt' (vals ++ [v]) st1 o2
            else some .panic)
          (fun _ o2 =>
            if skip then
              if room cnt then countK b cnt fun cnt' => fin cnt' (vals ++ [v]) st1 o2
              else some .panic
            else fin cnt vals st1 o2))
        (fun _ st1 o1 => fin cnt vals st1 o1)
    else fin cnt vals st o

/-- `src/ctor/sep.rs:1101-1119`, as `conSepCollect` with `cnt += 1` checked. -/
def conSepCollectM (ms : Nat → Option (Res Span)) (p : Pat ι β) (skip : Bool)
    (fin : Nat → List (Val β) → σ → Nat → Option (CRes σ (Val β))) :
    Nat → Bool → Nat → List (Val β) → σ → Nat → Option (CRes σ (Val β))
  | 0, _, _, _, _, _ => none
  | fuel + 1, ended, cnt, vals, st, o =>
    caseC (cn p st o)
      (fun v st1 o1 => caseM (ms o1)
        (fun _ o2 =>
          if ended then fin cnt vals st1 o2
          else countK b cnt fun cnt' =>
            conSepCollectM ms p skip fin fuel false cnt' (vals ++ [v]) st1 o2)
        (fun _ o2 =>
          if ended then fin cnt vals st1 o2
          else if skip then countK b cnt fun cnt' =>
            conSepCollectM ms p skip fin fuel true cnt' (vals ++ [v]) st1 o2
          else fin cnt vals st1 o2))
      (fun _ st1 o1 => fin cnt vals st1 o1)

end Combinators

/-- One level of `construct` in build `b`: as `conStep` of `Ctor.lean`; only the loops
that count for themselves do arithmetic (`Separate` uses `vals.len()`). -/
def conStepM (b : Build) (G : Rules ι β) (H : Handler ι β σ) (fuel : Nat)
    (mt : Pat ι β → Nat → Option (Res Span)) (leaf : Option (Res Span))
    (cn : Pat ι β → σ → Nat → Option (CRes σ (Val β)))
    (d : List ι) (p : Pat ι β) (st : σ) (o : Nat) : Option (CRes σ (Val β)) :=
  match p with
  -- `src/ctor/repeat.rs:214-239`
  | .rep q r =>
    conRepM b cn q r.more (fun _ => true) (conFinish r.contains .repeat_ o Val.list) fuel 0 [] st o
  -- `src/ctor/repeat2.rs:161-187`
  | .rep2 q m n =>
    conRepM b cn q (fun c => decide (c ≤ n)) (fun c => decide (c < n))
      (conFinish (fun c => decide (m ≤ c) && decide (c ≤ n)) .repeat2 o (padded n)) fuel 0 [] st o
  -- `src/ctor/collect.rs:166-188`
  | .collect q min =>
    conRepM b cn q (fun _ => true) (fun _ => true)
      (conFinish (fun c => decide (c ≥ min)) .collect o Val.list) fuel 0 [] st o
  -- `src/ctor/sep.rs:785-818`
  | .sep2 q s skip m n =>
    conSepM b cn (mt s) q skip (fun c => decide (c ≤ n)) (fun c => decide (c < n))
      (conFinish (fun c => decide (c ≥ m)) .separate2 o (padded n)) fuel 0 [] st o
  -- `src/ctor/sep.rs:1094-1132`
  | .sepCollect q s skip min =>
    conSepCollectM b cn (mt s) q skip
      (conFinish (fun c => decide (c ≥ min)) .sepCollect o Val.list) fuel false 0 [] st o
  -- no arithmetic of its own
  | p => conStep G H fuel mt leaf cn d p st o

/-- `p.construct(ctx, handler)` in build `b`, with fuel. -/
def conM (b : Build) (G : Rules ι β) (H : Handler ι β σ) :
    Nat → Option (Pat ι β) → List ι → Pat ι β → σ → Nat → Option (CRes σ (Val β))
  | 0 => fun _ _ _ _ _ => none
  | n + 1 => fun pol d p st o =>
    conStepM b G H n (tryMatM b G n pol d) (tryMatM b G (n + 1) pol d p o) (conM b G H n pol d)
      d p st o

/-- `p.construct(ctx, handler)`, compiled with the options `b`, finishes with `r`. -/
def ConstructsOn (b : Build) (G : Rules ι β) (H : Handler ι β σ) (pol : Option (Pat ι β)) (d : List ι)
    (p : Pat ι β) (st : σ) (o : Nat) (r : CRes σ (Val β)) : Prop :=
  ∃ n, conM b G H n pol d p st o = some r

end Neure
