import Verif.Syntax
/-!
# Matching: `Regex::try_parse` and `Match::try_mat`

`parse G n pol d p o` models `p.try_parse(ctx)` where `ctx` holds data `d` and
offset `o`.  `pol = none` is a plain `RegexCtx`; `pol = some q` is a
`PolicyCtx` with policy pattern `q`.  `n` is fuel: `none` means "not finished
within the fuel".  Nested calls are made through `ctx.try_mat`, modelled by
`matWith`.
-/

namespace Neure

variable {ι β : Type} [Item ι]

/-- Sequencing on the result of a nested call: panics and missing fuel
propagate, `Ok` and `Err` are handled by the continuations.  (Rust control flow:
`?`, `if let Ok`, `or_else`, `inspect_err`.) -/
def caseR {α γ : Type} (r : Option (Res α)) (kOk : α → Nat → Option (Res γ))
    (kErr : Error → Nat → Option (Res γ)) : Option (Res γ) :=
  match r with
  | none => none
  | some .panic => some .panic
  | some (.ok a o) => kOk a o
  | some (.err e o) => kErr e o

/-- Sequencing on an `Out` (calls that do not move the offset). -/
def caseO {α γ : Type} (r : Option (Out α)) (kOk : α → Option (Res γ))
    (kErr : Error → Option (Res γ)) : Option (Res γ) :=
  match r with
  | none => none
  | some .panic => some .panic
  | some (.ok a) => kOk a
  | some (.err e) => kErr e

/-- `s.add_assign(t)` followed by the rest of the computation. -/
def addK {γ : Type} (s t : Span) (k : Span → Option (Res γ)) : Option (Res γ) :=
  match s.addAssign t with
  | none => some .panic
  | some s' => k s'

/-- `ctx.len() - ctx.offset()` followed by the rest (panics on underflow). -/
def remK {γ : Type} (d : List ι) (o : Nat) (k : Nat → Option (Res γ)) : Option (Res γ) :=
  if o ≤ blen d then k (blen d - o) else some .panic

/-- `new_span_inc(ctx, calc_length(beg, end, remaining))`. -/
def spanK (o : Nat) (len : Option Nat) : Option (Res Span) :=
  match len with
  | none => some .panic
  | some l => some (newSpanInc o l)

/-- `ctx.try_mat(p)`.  Plain context: `src/ctx/regex.rs:443-448` (with the no-op
before/after patterns of `src/ctx.rs:162, 176`).  Policy context:
`src/ctx/policy.rs:154-160`: the policy pattern is parsed on the inner (plain)
context first, then the pattern on the policy context. -/
def matWith (pr : Option (Pat ι β) → List ι → Pat ι β → Nat → Option (Res Span))
    (pol : Option (Pat ι β)) (d : List ι) (p : Pat ι β) (o : Nat) : Option (Res Span) :=
  match pol with
  | none => pr none d p o
  | some q => caseR (pr none d q o) (fun _ o' => pr pol d p o') (fun e o' => some (.err e o'))

section Leaves

/-- State of the scanning loops of the unit patterns. -/
structure Scan (ι : Type) where
  cnt : Nat
  beg : Option Nat
  stop : Option Nat
  rest : List (Nat × ι)

/-- `NeuCond::check`, `src/neu/cond.rs`: 71-73 (empty), 57-61 (closure),
122-128 (regex: `clone_at(ctx.offset() + item.0)?`, then `try_mat` on the
clone, whose data is the suffix and whose offset is 0). -/
def check (mt : List ι → Pat ι β → Nat → Option (Res Span)) (d : List ι) (o : Nat)
    (c : Cond ι β) (pr : Nat × ι) : Option (Out Bool) :=
  match c with
  | .empty => some (.ok true)
  | .fn f => some (f d o pr)
  | .regex p =>
    match origAt d (o + pr.1) with
    | .panic => some .panic
    | .err e => some (.err e)
    | .ok d' =>
      match mt d' p 0 with
      | none => none
      | some .panic => some .panic
      | some (.ok _ _) => some (.ok true)
      | some (.err _ _) => some (.ok false)

/-- `unit.is_match(&item) && cond.check(ctx, &pair)?`. -/
def testItem (mt : List ι → Pat ι β → Nat → Option (Res Span)) (d : List ι) (o : Nat)
    (u : Neu ι) (c : Cond ι β) (pr : Nat × ι) : Option (Out Bool) :=
  if u.isMatch pr.2 then check mt d o c pr else some (.ok false)

/-- The scanning loop shared by `Many0` (`src/neu/opt.rs:400-408`), `Many1`
(`src/neu/once.rs:387-395`), `Between` (`src/neu/times.rs:235-248`) and `Times`
(`src/neu/times.rs:457-470`).  `more cnt` is the loop condition (constantly
true for `Many0`/`Many1`, which do not count; counting is harmless there). -/
def scan (test : Nat × ι → Option (Out Bool)) (more : Nat → Bool) :
    Nat → Option Nat → List (Nat × ι) → Option (Out (Scan ι))
  | cnt, beg, [] => some (.ok ⟨cnt, beg, none, []⟩)
  | cnt, beg, pr :: it =>
    if more cnt then
      match test pr with
      | none => none
      | some .panic => some .panic
      | some (.err e) => some (.err e)
      | some (.ok true) => scan test more (cnt + 1) (beg.or (some pr.1)) it
      | some (.ok false) => some (.ok ⟨cnt, beg, some pr.1, it⟩)
    else some (.ok ⟨cnt, beg, none, pr :: it⟩)

variable (mt : List ι → Pat ι β → Nat → Option (Res Span))

/-- `src/neu/once.rs:185-200` `Once::try_parse`. -/
def onceParse (d : List ι) (u : Neu ι) (c : Cond ι β) (o : Nat) : Option (Res Span) :=
  caseO (some (peek d o))
    (fun it => remK d o fun rem =>
      match it with
      | [] => some (.err .once o)
      | pr :: it' =>
        caseO (testItem mt d o u c pr)
          (fun b => if b then spanK o (calcLength (some pr.1) (it'.head?.map (·.1)) rem)
            else some (.err .once o))
          (fun e => some (.err e o)))
    (fun e => some (.err e o))

/-- `src/neu/opt.rs:196-211` `Opt::try_parse`. -/
def optUParse (d : List ι) (u : Neu ι) (c : Cond ι β) (o : Nat) : Option (Res Span) :=
  remK d o fun rem =>
    caseO (some (peek d o))
      (fun it =>
        match it with
        | [] => some (.ok ⟨o, 0⟩ o)
        | pr :: it' =>
          caseO (testItem mt d o u c pr)
            (fun b => if b then spanK o (calcLength (some pr.1) (it'.head?.map (·.1)) rem)
              else some (.ok ⟨o, 0⟩ o))
            (fun e => some (.err e o)))
      (fun _ => some (.ok ⟨o, 0⟩ o))

/-- `src/neu/opt.rs:392-416` `Many0::try_parse`. -/
def many0Parse (d : List ι) (u : Neu ι) (c : Cond ι β) (o : Nat) : Option (Res Span) :=
  remK d o fun rem =>
    caseO (some (peek d o))
      (fun it =>
        caseO (scan (testItem mt d o u c) (fun _ => true) 0 none it)
          (fun s => match s.beg with
            | none => some (.ok ⟨o, 0⟩ o)
            | some b => spanK o (calcLength (some b) s.stop rem))
          (fun e => some (.err e o)))
      (fun _ => some (.ok ⟨o, 0⟩ o))

/-- `src/neu/once.rs:379-403` `Many1::try_parse`. -/
def many1Parse (d : List ι) (u : Neu ι) (c : Cond ι β) (o : Nat) : Option (Res Span) :=
  caseO (some (peek d o))
    (fun it => remK d o fun rem =>
      caseO (scan (testItem mt d o u c) (fun _ => true) 0 none it)
        (fun s => match s.beg with
          | none => some (.err .many1 o)
          | some b => spanK o (calcLength (some b) s.stop rem))
        (fun e => some (.err e o)))
    (fun e => some (.err e o))

/-- `src/neu/times.rs:224-257` `Between::try_parse`. -/
def betweenParse (d : List ι) (m n : Nat) (u : Neu ι) (c : Cond ι β) (o : Nat) :
    Option (Res Span) :=
  caseO (some (peek d o))
    (fun it => remK d o fun rem =>
      if rem ≥ m * u.minLength then
        caseO (scan (testItem mt d o u c) (fun cnt => decide (cnt < n)) 0 none it)
          (fun s =>
            if s.cnt ≥ m then
              spanK o (calcLength s.beg (s.stop.or (s.rest.head?.map (·.1))) rem)
            else some (.err .between o))
          (fun e => some (.err e o))
      else some (.err .between o))
    (fun e => some (.err e o))

/-- `src/neu/times.rs:430-479` `Times::try_parse`. -/
def timesParse (d : List ι) (r : CRange) (u : Neu ι) (c : Cond ι β) (o : Nat) :
    Option (Res Span) :=
  caseO (some (peek d o))
    (fun it => remK d o fun rem =>
      if rem ≥ r.needed u.minLength then
        caseO (scan (testItem mt d o u c) r.more 0 none it)
          (fun s =>
            if r.contains s.cnt then
              spanK o (calcLength s.beg (s.stop.or (s.rest.head?.map (·.1))) rem)
            else some (.err .times o))
          (fun e => some (.err e o))
      else some (.err .times o))
    (fun e => some (.err e o))

/-- `src/neu/then.rs:204-223` `NeureThen::try_parse`. -/
def thenUParse (d : List ι) (u v : Neu ι) (c : Cond ι β) (o : Nat) : Option (Res Span) :=
  caseO (some (peek d o))
    (fun it => remK d o fun rem =>
      if rem ≥ u.minLength + v.minLength then
        match it with
        | fst :: snd :: it' =>
          caseO (testItem mt d o u c fst)
            (fun b => if b then
                caseO (testItem mt d o v c snd)
                  (fun b' =>
                    if b' then spanK o (calcLength (some fst.1) (it'.head?.map (·.1)) rem)
                    else some (.err .neureThen o))
                  (fun e => some (.err e o))
              else some (.err .neureThen o))
            (fun e => some (.err e o))
        | _ => some (.err .neureThen o)
      else some (.err .neureThen o))
    (fun e => some (.err e o))

/-- `src/regex/literal.rs:104-114` `Literal::try_parse`. -/
def litParse (d : List ι) (l : List ι) (o : Nat) : Option (Res Span) :=
  remK d o fun rem =>
    if rem ≥ blen l then
      caseO (some (origAt d o))
        (fun rest => if l.isPrefixOf rest then some (newSpanInc o (blen l))
          else some (.err .literal o))
        (fun e => some (.err e o))
    else some (.err .literal o)

/-- `src/regex/consume.rs:76-87` `Consume::try_parse`. -/
def consumeParse (d : List ι) (n o : Nat) : Option (Res Span) :=
  remK d o fun rem => if rem ≥ n then some (newSpanInc o n) else some (.err .consume o)

end Leaves

section Combinators

variable (mt : Pat ι β → Nat → Option (Res Span))

/-- `src/regex.rs:773-798` `handler`: ordered choice over a slice; `beg` is the
starting offset. -/
def choiceLoop (e : Error) (beg : Nat) : List (Pat ι β × Option (Val β)) → Nat → Option (Res Span)
  | [], o => some (.err e o)
  | it :: items, o =>
    caseR (mt it.1 o) (fun s o' => some (.ok s o')) (fun _ _ => choiceLoop e beg items beg)

/-- `src/regex.rs:800-826` `handler_ltm`: every alternative is tried from
`beg`; the first longest span is returned; the offset stays where the last
attempt left it. -/
def ltmLoop (e : Error) (beg : Nat) :
    List (Pat ι β × Option (Val β)) → Option Span → Nat → Option (Res Span)
  | [], none, o => some (.err e o)
  | [], some s, o => some (.ok s o)
  | it :: items, best, _ =>
    caseR (mt it.1 beg)
      (fun s o' =>
        let upd := match best with | none => true | some v => decide (v.len < s.len)
        ltmLoop e beg items (if upd then some s else best) o')
      (fun _ o' => ltmLoop e beg items best o')

/-- The repetition loops: `src/ctor/repeat.rs:254-261`,
`src/ctor/repeat2.rs:203-210`, `src/ctor/collect.rs:204-207`.  `more cnt` is the
loop condition, `fin cnt total off` what follows the loop. -/
def repLoop (p : Pat ι β) (more : Nat → Bool) (fin : Nat → Span → Nat → Option (Res Span)) :
    Nat → Nat → Span → Nat → Option (Res Span)
  | 0, _, _, _ => none
  | fuel + 1, cnt, total, o =>
    if more cnt then
      caseR (mt p o)
        (fun s o' => addK total s fun total' => repLoop p more fin fuel (cnt + 1) total' o')
        (fun _ o' => fin cnt total o')
    else fin cnt total o

/-- The separator loops: `src/ctor/sep.rs:549-562` (`Separate`), `835-852`
(`Separate2`), `1149-1162` (`SepCollect`). -/
def sepLoop (p s : Pat ι β) (skip : Bool) (more : Nat → Bool)
    (fin : Nat → Span → Nat → Option (Res Span)) :
    Nat → Nat → Span → Nat → Option (Res Span)
  | 0, _, _, _ => none
  | fuel + 1, cnt, total, o =>
    if more cnt then
      caseR (mt p o)
        (fun ps o' =>
          caseR (mt s o')
            (fun ss o'' =>
              addK total ps fun t1 => addK t1 ss fun t2 =>
                sepLoop p s skip more fin fuel (cnt + 1) t2 o'')
            (fun _ o'' =>
              if skip then addK total ps fun t1 => fin (cnt + 1) t1 o''
              else fin cnt total o''))
        (fun _ o' => fin cnt total o')
    else fin cnt total o

/-- After the loops: `if ok { Ok(total) } else { Err(e) }` with the offset reset
on error (`.inspect_err(|_| ctx.set_offset(offset))`). -/
def finish (ok : Nat → Bool) (e : Error) (beg : Nat) (cnt : Nat) (total : Span) (o : Nat) :
    Option (Res Span) :=
  if ok cnt then some (.ok total o) else some (.err e beg)

end Combinators

/-- One level of `try_parse`.  `mt` is `ctx.try_mat` (for any data, since
conditions run on a re-based clone), `pr` is `try_parse` on the same context,
`fuel` bounds the loops. -/
def step (G : Rules ι β) (fuel : Nat) (mt : List ι → Pat ι β → Nat → Option (Res Span))
    (pr : Pat ι β → Nat → Option (Res Span))
    (d : List ι) (p : Pat ι β) (o : Nat) : Option (Res Span) :=
  match p with
  -- `src/regex/empty.rs:61-63`, `src/regex.rs:84-87`
  | .empty => some (.ok ⟨o, 0⟩ o)
  -- `src/regex/fail.rs:61-63`
  | .fail => some (.err .fail o)
  -- `src/regex/anchor.rs:75-85`
  | .start => if o = 0 then some (newSpanInc o 0) else some (.err .anchorStart o)
  -- `src/regex/anchor.rs:176-186`
  | .anchorEnd => if o = blen d then some (newSpanInc o 0) else some (.err .anchorEnd o)
  | .consume n => consumeParse d n o
  -- `src/regex/consume.rs:173-180` (saturating)
  | .consumeAll => some (newSpanInc o (blen d - o))
  | .lit l => litParse d l o
  | .native f => some (f d o)
  | .once u c => onceParse mt d u c o
  | .many1 u c => many1Parse mt d u c o
  | .optU u c => optUParse mt d u c o
  | .many0 u c => many0Parse mt d u c o
  | .between m n u c => betweenParse mt d m n u c o
  | .times r u c => timesParse mt d r u c o
  | .thenU u v c => thenUParse mt d u v c o
  -- `src/regex/assert.rs:92-106`
  | .assert q value =>
    caseR (mt d q o)
      (fun _ _ => if value then some (.ok ⟨o, 0⟩ o) else some (.err .assertFalse o))
      (fun _ _ => if value then some (.err .assertTrue o) else some (.ok ⟨o, 0⟩ o))
  -- `src/ctor/then.rs:242-251`
  | .thn a b =>
    caseR (mt d a o)
      (fun s1 o1 => caseR (mt d b o1)
        (fun s2 o2 => addK s1 s2 fun s => some (.ok s o2))
        (fun e _ => some (.err e o)))
      (fun e _ => some (.err e o))
  -- `src/ctor/then.rs:492-511`
  | .ifThen a t b =>
    caseR (mt d a o)
      (fun s1 o1 => caseR (mt d t o1)
        (fun s2 o2 => addK s1 s2 fun s12 => caseR (mt d b o2)
          (fun s3 o3 => addK s12 s3 fun s => some (.ok s o3))
          (fun e _ => some (.err e o)))
        (fun _ _ => some (.ok s1 o1)))
      (fun e _ => some (.err e o))
  -- `src/ctor/affix.rs:423-436`
  | .pre a b =>
    caseR (mt d a o)
      (fun s1 o1 => caseR (mt d b o1)
        (fun s2 o2 => addK s1 s2 fun s => some (.ok s o2))
        (fun e _ => some (.err e o)))
      (fun e _ => some (.err e o))
  -- `src/ctor/affix.rs:216-228`
  | .suf a b =>
    caseR (mt d a o)
      (fun s1 o1 => caseR (mt d b o1)
        (fun s2 o2 => addK s1 s2 fun s => some (.ok s o2))
        (fun e _ => some (.err e o)))
      (fun e _ => some (.err e o))
  -- `src/ctor/enclose.rs:241-259`
  | .enclose a b c =>
    caseR (mt d a o)
      (fun s1 o1 => caseR (mt d b o1)
        (fun s2 o2 => addK s1 s2 fun s12 => caseR (mt d c o2)
          (fun s3 o3 => addK s12 s3 fun s => some (.ok s o3))
          (fun e _ => some (.err e o)))
        (fun e _ => some (.err e o)))
      (fun e _ => some (.err e o))
  -- `src/ctor/sep.rs:245-254`
  | .sepOnce a b c =>
    caseR (mt d a o)
      (fun s1 o1 => addK ⟨o, 0⟩ s1 fun t1 => caseR (mt d b o1)
        (fun s2 o2 => addK t1 s2 fun t2 => caseR (mt d c o2)
          (fun s3 o3 => addK t2 s3 fun s => some (.ok s o3))
          (fun e _ => some (.err e o)))
        (fun e _ => some (.err e o)))
      (fun e _ => some (.err e o))
  -- `src/ctor/or.rs:238-252`
  | .or a b =>
    caseR (mt d a o) (fun s o1 => some (.ok s o1))
      (fun _ _ => caseR (mt d b o) (fun s o2 => some (.ok s o2)) (fun e _ => some (.err e o)))
  -- `src/ctor/longest.rs:239-261`: the offset is set to `offset + len`
  | .longest a b =>
    caseR (mt d a o)
      (fun l _ => caseR (mt d b o)
        (fun r _ => if l.len ≥ r.len then some (.ok l (o + l.len)) else some (.ok r (o + r.len)))
        (fun _ _ => some (.ok l (o + l.len))))
      (fun _ _ => caseR (mt d b o)
        (fun r _ => some (.ok r (o + r.len)))
        (fun e _ => some (.err e o)))
  -- `src/ctor/opt.rs:178-191`
  | .opt q =>
    caseR (mt d q o) (fun s o1 => some (.ok s o1)) (fun _ _ => some (.ok ⟨o, 0⟩ o))
  -- `src/ctor/vec.rs:164-177, 335-348` (array/slice alike)
  | .choice e items => choiceLoop (mt d) e o items o
  | .ltm e items => ltmLoop (mt d) e o items none o
  -- `src/ctor/repeat.rs:248-272`
  | .rep q r => repLoop (mt d) q r.more (finish r.contains .repeat_ o) fuel 0 ⟨o, 0⟩ o
  -- `src/ctor/repeat2.rs:196-221`
  | .rep2 q m n =>
    repLoop (mt d) q (fun c => decide (c ≤ n))
      (finish (fun c => decide (m ≤ c) && decide (c ≤ n)) .repeat2 o) fuel 0 ⟨o, 0⟩ o
  -- `src/ctor/collect.rs:197-218`
  | .collect q min =>
    repLoop (mt d) q (fun _ => true) (finish (fun c => decide (c ≥ min)) .collect o) fuel 0 ⟨o, 0⟩ o
  -- `src/ctor/sep.rs:542-573`
  | .sep q s skip min =>
    sepLoop (mt d) q s skip (fun _ => true) (finish (fun c => decide (c ≥ min)) .separate o)
      fuel 0 ⟨o, 0⟩ o
  -- `src/ctor/sep.rs:828-863`
  | .sep2 q s skip m n =>
    sepLoop (mt d) q s skip (fun c => decide (c ≤ n)) (finish (fun c => decide (c ≥ m)) .separate2 o)
      fuel 0 ⟨o, 0⟩ o
  -- `src/ctor/sep.rs:1142-1173`
  | .sepCollect q s skip min =>
    sepLoop (mt d) q s skip (fun _ => true) (finish (fun c => decide (c ≥ min)) .sepCollect o)
      fuel 0 ⟨o, 0⟩ o
  -- `src/ctor/branch.rs:249-265`
  | .branch test a b =>
    caseO (some (test d o))
      (fun t => caseR (mt d (if t then a else b) o) (fun s o1 => some (.ok s o1))
        (fun e _ => some (.err e o)))
      (fun e => some (.err e o))
  -- `src/ctor/map.rs:241-243`
  | .map q _ => mt d q o
  -- `src/ctor/pat.rs:150-152`
  | .pat q => mt d q o
  -- `src/regex/builder.rs:44-58`; an error of the closure does not reset
  | .build q f =>
    caseR (mt d q o)
      (fun s o1 => caseR (some (f d o1 s))
        (fun p' o2 => caseR (mt d p' o2) (fun s' o3 => some (.ok s' o3))
          (fun e _ => some (.err e o)))
        (fun e o2 => some (.err e o2)))
      (fun e _ => some (.err e o))
  -- `src/ctor/dthen.rs:203-205` `unimplemented!`
  | .dthen _ _ => some .panic
  -- `Rc<RefCell<Option<P>>>`: `src/regex.rs:225-229`, forwarding `try_parse`
  | .cell i => match G i with
    | none => some (.err .option o)
    | some q => pr q o

/-- `p.try_parse(ctx)` with fuel. -/
def parse (G : Rules ι β) : Nat → Option (Pat ι β) → List ι → Pat ι β → Nat → Option (Res Span)
  | 0 => fun _ _ _ _ => none
  | n + 1 => fun pol d p o => step G n (matWith (parse G n) pol) (parse G n pol d) d p o

/-- `ctx.try_mat(&p)` with fuel. -/
def tryMat (G : Rules ι β) (n : Nat) (pol : Option (Pat ι β)) (d : List ι) (p : Pat ι β) (o : Nat) :
    Option (Res Span) := matWith (parse G n) pol d p o

/-- `ctx.try_mat(&p)` finishes with result `r` (fuel-independent). -/
def Runs (G : Rules ι β) (pol : Option (Pat ι β)) (d : List ι) (p : Pat ι β) (o : Nat)
    (r : Res Span) : Prop := ∃ n, tryMat G n pol d p o = some r

/-- `p.try_parse(&mut ctx)` finishes with result `r` (fuel-independent). -/
def Parses (G : Rules ι β) (pol : Option (Pat ι β)) (d : List ι) (p : Pat ι β) (o : Nat)
    (r : Res Span) : Prop := ∃ n, parse G n pol d p o = some r

end Neure
