import Verif.Match
/-!
# The stateful unit `Prefix` and its thread-safe variant `PrefixSync`
(`src/neu/prefix.rs`)

`Prefix` keeps its state in `Cell`s behind `&self`.  `PrefixSync` keeps it in two
atomics accessed with `Relaxed` loads and stores (no read-modify-write), so
calls of `is_match` from several threads interleave at the level of single
loads and stores.  The prefix and unit inside are taken to be stateless
predicates.
-/

namespace Neure

variable {ι β : Type} [Item ι]

/-- `src/neu/prefix.rs:12-22` `Prefix`: the two `Cell`s. -/
structure PrefixState where
  count : Nat
  value : Bool
  deriving DecidableEq, Repr

/-- `Prefix::new`, `src/neu/prefix.rs:76-83` (`prefix_cnt(p, n, u)`, `:254-260`;
`prefix(p, u)` is `n = 1`, `:191-197`). -/
def PrefixState.new (n : Nat) : PrefixState := ⟨n, true⟩

/-- `Prefix::is_match`, `src/neu/prefix.rs:120-140`.  (`count - 1` cannot
underflow: it is only computed for `count ≠ 0`.) -/
def prefixIsMatch (p u : ι → Bool) (s : PrefixState) (x : ι) : Bool × PrefixState :=
  if s.value then
    if s.count = 0 then (u x && s.value, s)
    else (p x && s.value, ⟨s.count - 1, p x && s.value⟩)
  else (s.value, s)

/-- Successive calls of `is_match` (not a function of the crate). -/
def prefixCalls (p u : ι → Bool) : PrefixState → List ι → List Bool × PrefixState
  | s, [] => ([], s)
  | s, x :: l =>
    ((prefixIsMatch p u s x).1 :: (prefixCalls p u (prefixIsMatch p u s x).2 l).1,
      (prefixCalls p u (prefixIsMatch p u s x).2 l).2)

/-- The scanning loop of `Many0`/`Many1`/`Times` (`src/neu/opt.rs:400-408`,
`src/neu/once.rs:387-395`, `src/neu/times.rs:457-470`; `scan` in `Match.lean`)
over a `Prefix` with the empty condition: the unit's state changes with every
call of `is_match`. -/
def scanP (p u : ι → Bool) (more : Nat → Bool) :
    PrefixState → Nat → Option Nat → List (Nat × ι) → Scan ι
  | _, cnt, beg, [] => ⟨cnt, beg, none, []⟩
  | s, cnt, beg, pr :: it =>
    if more cnt then
      if (prefixIsMatch p u s pr.2).1 then
        scanP p u more (prefixIsMatch p u s pr.2).2 (cnt + 1) (beg.or (some pr.1)) it
      else ⟨cnt, beg, some pr.1, it⟩
    else ⟨cnt, beg, none, pr :: it⟩

/-- `prefix_cnt(p, n, u).many0()`, `src/neu/opt.rs:392-416`. -/
def many0P (d : List ι) (p u : ι → Bool) (s : PrefixState) (o : Nat) : Option (Res Span) :=
  remK d o fun rem =>
    caseO (some (peek d o))
      (fun it => match (scanP p u (fun _ => true) s 0 none it).beg with
        | none => some (.ok ⟨o, 0⟩ o)
        | some b => spanK o (calcLength (some b) (scanP p u (fun _ => true) s 0 none it).stop rem))
      (fun _ => some (.ok ⟨o, 0⟩ o))

/-- `prefix_cnt(p, n, u).many1()`, `src/neu/once.rs:379-403`. -/
def many1P (d : List ι) (p u : ι → Bool) (s : PrefixState) (o : Nat) : Option (Res Span) :=
  caseO (some (peek d o))
    (fun it => remK d o fun rem =>
      match (scanP p u (fun _ => true) s 0 none it).beg with
        | none => some (.err .many1 o)
        | some b => spanK o (calcLength (some b) (scanP p u (fun _ => true) s 0 none it).stop rem))
    (fun e => some (.err e o))

/-- `prefix_cnt(p, n, u).times(r)`, `src/neu/times.rs:430-479`; `min_length` of a
`Prefix` is 0 (`src/neu/prefix.rs:142-144`). -/
def timesP (d : List ι) (p u : ι → Bool) (r : CRange) (s : PrefixState) (o : Nat) :
    Option (Res Span) :=
  caseO (some (peek d o))
    (fun it => remK d o fun rem =>
      if rem ≥ r.needed 0 then
        if r.contains (scanP p u r.more s 0 none it).cnt then
          spanK o (calcLength (scanP p u r.more s 0 none it).beg
            ((scanP p u r.more s 0 none it).stop.or
              ((scanP p u r.more s 0 none it).rest.head?.map (·.1))) rem)
        else some (.err .times o)
      else some (.err .times o))
    (fun e => some (.err e o))

/-! ## `PrefixSync` -/

/-- Where a thread is inside `PrefixSync::is_match(&x)`,
`src/neu/prefix.rs:370-390`. -/
inductive PC (ι : Type) where
  /-- not inside a call -/
  | idle
  /-- `value.load` (line 371) returned `true` -/
  | loaded (x : ι)
  /-- `count.load` (line 374) returned `c ≠ 0` -/
  | counted (x : ι) (c : Nat)
  /-- `value.store` (line 384) done, `count.store` (line 385) is next -/
  | stored (x : ι) (c : Nat)

/-- What decided the result of a call. -/
inductive Decider where
  /-- the value cell was `false` -/
  | blocked
  /-- the count was 0: the unit decided -/
  | unit
  /-- the count was `c`: the prefix decided -/
  | pref (c : Nat)
  deriving DecidableEq, Repr

/-- A completed call: thread, item, decider, returned value. -/
structure Call (ι : Type) where
  tid : Nat
  item : ι
  by_ : Decider
  ret : Bool
  deriving DecidableEq, Repr

/-- The shared object and all threads.  `value` and `count` hold every value ever
stored, latest first: a `Relaxed` load may return an old one. -/
structure SyncState (ι : Type) where
  value : List Bool
  count : List Nat
  pc : Nat → PC ι
  log : List (Call ι)
  /-- a `usize` subtraction underflowed -/
  panicked : Bool

/-- `PrefixSync::new`, `src/neu/prefix.rs:326-333`. -/
def SyncState.init (n : Nat) : SyncState ι :=
  { value := [true], count := [n], pc := fun _ => .idle, log := [], panicked := false }

/-- Assigning one thread's position. -/
def setPC (f : Nat → PC ι) (i : Nat) (c : PC ι) : Nat → PC ι := fun j => if j = i then c else f j

/-- A scheduling choice: which thread moves, which item it tests if it starts a
new call, and how old a value a load returns (0 = the latest). -/
structure Choice (ι : Type) where
  tid : Nat
  item : ι
  age : Nat

/-- One atomic step of thread `ch.tid`: `PrefixSync::is_match`,
`src/neu/prefix.rs:370-390`, cut at its loads and stores.  `none`: the choice asks
for a value that was never stored. -/
def syncStep (p u : ι → Bool) (s : SyncState ι) (ch : Choice ι) : Option (SyncState ι) :=
  match s.pc ch.tid with
  | .idle => match s.value[ch.age]? with
    | none => none
    | some true => some { s with pc := setPC s.pc ch.tid (.loaded ch.item) }
    | some false => some { s with log := ⟨ch.tid, ch.item, .blocked, false⟩ :: s.log }
  | .loaded x => match s.count[ch.age]? with
    | none => none
    | some c =>
      if c = 0 then some { s with
        pc := setPC s.pc ch.tid .idle, log := ⟨ch.tid, x, .unit, u x⟩ :: s.log }
      else some { s with pc := setPC s.pc ch.tid (.counted x c) }
  | .counted x c => some { s with value := p x :: s.value, pc := setPC s.pc ch.tid (.stored x c) }
  | .stored x c => some { s with
      count := (c - 1) :: s.count, pc := setPC s.pc ch.tid .idle,
      log := ⟨ch.tid, x, .pref c, p x⟩ :: s.log,
      panicked := s.panicked || decide (c = 0) }

/-- A whole schedule. -/
def syncRun (p u : ι → Bool) : SyncState ι → List (Choice ι) → Option (SyncState ι)
  | s, [] => some s
  | s, ch :: l => match syncStep p u s ch with
    | none => none
    | some s' => syncRun p u s' l

end Neure
