# Formal model of araraloren/neure (0.10.1) in Lean 4

Paths below are relative to `/repo/src` unless they start with `examples/`.

## 1. What is modelled and how

Model (definitions only, each citing the lines it models):

| Lean module (`lean/Verif/…`) | Code modelled |
|---|---|
| `Data.lean` | input data: `str` as a list of items with sizes 1–4, `[u8]` as a list of items of size 1; `ctx/regex.rs` `len/orig_at/orig_sub/peek_at/clone_at`; `err.rs`; `span.rs` `Span`, `add_assign`; `ctx.rs` `new_span_inc`; `neu/*.rs` `length_of` |
| `Range.lean` | `neu/range.rs`: `CRange`, its conversions, `contains`, `is_empty`; the bound tests of `times`/`repeat` |
| `Unit.lean` | `neu.rs`, `neu/op_*.rs`, `neu/bool.rs`, `neu/equal.rs`, `neu/units.rs`: `is_match`, `min_length` |
| `Syntax.lean` | pattern syntax: one constructor per regex/ctor struct of the crate, user closures as functions |
| `Match.lean` | `try_parse`/`try_mat` of every construct as equations: `regex/*.rs`, `ctor/*.rs` (the `Regex` impls), `neu/{opt,once,times,then,cond}.rs`, `ctx/policy.rs`, the choice handlers of `regex.rs` |
| `Ctor.lean` | `construct` of every construct as equations: the `Ctor` impls in `ctor/*.rs`, the choice handlers of `ctor.rs`, `ctor/extract.rs`, `ctx.rs` `map*` |
| `Imp.lean` | the same functions again, transliterated statement by statement: the context as mutable state, `?`, `CtxGuard` (`ctx/guard.rs`) with its `Drop`, `for`/`while` loops. `ImpLemmas.lean` proves both versions equal (C55) |
| `Find.lean` | `ctx.rs` `MatchMulti` (`find`, `find_all`, `match_seq`), `is_mat`, `try_assert`, `PolicyMatch` |
| `Storer.lean` | `span.rs` `VecStorer`, `ArrayStorer`; `iter/*.rs` |
| `Mapper.lean` | `map.rs` |
| `Prefix.lean` | `neu/prefix.rs`: `Prefix` sequentially; `PrefixSync` as an interleaving semantics over its atomic loads and stores |
| `RecSync.lean` | `regex/rec.rs` sync handles: evaluators that carry the set of locked mutexes |
| `Escape.lean` | `macro.rs` `escape_strval!` |
| `Json.lean` | `examples/json.rs`, the whole grammar |
| `Png.lean` | `examples/png2.rs`: the checksum (also `examples/png.rs`), `parse`, `Trunk::new`, `Png::new`, the control flow of `main` |
| `PngPlain.lean` | `examples/png.rs`: `main`; `examples/png2.rs`: what `main` prints |
| `Classes.lean` | `neu/units.rs`: the character classes with the std predicates they call written out |
| `NumText.lean` | `map.rs` `FromStrRadix` with std's `from_str_radix` written out; number patterns |
| `Macro.lean` | `macro.rs`: the rules of `neu!` and `regex!` on token trees |
| `Email.lean` | the e-mail parsers of `README.md`, `bench/regex_nocap.rs`, `bench/regex_cap.rs` |
| `Api.lean` | shortcuts of `CtorOps`, `src/ctor.rs:843-893` (`skip_ws`, `skip_ascii_ws` and the leading variants) |
| `RefactorSpec.lean`, `Refactor.lean` | specification and lemmas for C66 (no code of its own) |
| `Conform.lean`, `ConformLib.lean`, `ConformDoc.lean`, `ConformMore.lean` | the crate's own tests and documentation examples evaluated in the model (evidence for the trusted base, no claims) |
| `Locks.lean` | `Mutex` forwarding (`src/regex.rs:231-235`, `src/ctor.rs:277-282`): when handles are locked and unlocked, and several threads doing so; `LockSpec.lean`, `LockRel.lean`, `LockStep.lean`, `LockLemmas.lean` are specification and lemmas |
| `Surface.lean` | the builder methods: `RegexOps`/`CtorOps` methods, `Separate`, `SepCollect`, `Separate2`, `Collect`, `Repeat` with their setters and defaults, `array`/`slice`/`vector` and pair forms; the allocations of `Separate` and `Repeat` |
| `Stateful.lean` | `Prefix` with other `Prefix`es, `or`, `and`, `not` inside or around it, under `many0`, `many1`, `times`; the example of `neu::prefix` |
| `Context.lean` | the trait `Context` and the constructors of `RegexCtx` and `PolicyCtx`; matching with any number of policies; `BytesIndices` |
| `Wrap.lean` | the forwarding impls and adapters (`Rc`, `Arc`, `Cell`, `RefCell`, `Option`, `Mutex`, `dyn`, `regex::Adapter`, `ctor::Adapter`, `Adapter::func`) around a pattern |
| `Color.lean` | `bench/nom_cap.rs`, `bench/find.rs`: the colour parsers and the two searches |
| `BenchJson.lean` | `bench/json.rs`: the two JSON parsers of the benchmark |
| `Circuit.lean` | the example of `skip_ascii_whitespace`, `src/ctx/regex.rs:209-315` |
| `ParamSpec.lean` | no new code: when two grammars differ only in their values |
| `DepthSpec.lean` | no new code: the call depth of `try_parse` and `construct` |
| `WorkSpec.lean` | no new code: counts the calls of `try_parse` and `construct` in the bodies of `Imp.lean` |
| `CfgSpec.lean` | no new code: the context-free reading of parsing expressions, LL(1) |
| `SpaceSpec.lean` | no new code: texts that differ in their spacing, tokens |
| `LinearSpec.lean` | no new code: the calls of a pattern written down, lookahead tables for them |
| `Poison.lean` | `Mutex` forwarding after a panic: `lock().map_err(\|_\| Error::Mutex)?` (`src/regex.rs:231-235`, `src/ctor.rs:277-282`); `PoisonSpec.lean`, `PoisonRel.lean`, `PoisonLemmas.lean`, `PoisonSys.lean` |
| `MeansSpec.lean` | no code: the translation scheme that a grammar with values is read as, the condition and the tables of C83; `MeansLemmas.lean` |
| `RewriteSpec.lean` | no code: patterns that behave alike (C84); `RewriteLemmas.lean` |
| `BlameSpec.lean` | no code: the cause of an error (C85); `BlameLemmas.lean`, `BlameCtor.lean` |
| `Message.lean` | `src/err.rs`: the messages of errors (C85) |
| `ChatLog.lean`, `Tuple.lean` | the examples of `prefix` (`src/ctor.rs:796-805`) and `if_then` (`src/ctor/then.rs:305-313`) |
| `Machine.lean` | matching and building values once more, in `usize` arithmetic of a debug or release build; `MachineSpec.lean` (no code), `MachineLemmas.lean`, `MachineCtor.lean`, `MachineMono.lean`, `MachineRelease.lean` |
| `MachineCalls.lean` | `src/ctx.rs`, `src/ctx/regex.rs`: `inc`, `dec`, `find` with the arithmetic of a build; sequences of calls |
| `Log.lean` | `src/log.rs` with a logging feature and messages switched on (what is printed is not modelled) |
| `Utf8.lean`, `Utf8Sim.lean` | `str` against its UTF-8 bytes |

Specifications, written without the model's evaluators: `Spec.lean`,
`CtorSpec.lean`, `StorerSpec.lean`, `Peg.lean` (parsing expression grammars), the head of `PegSkip.lean` (the same with a skip written in), `Attr.lean` (parsing expressions with values), the "what it should recognise" sections of
`Escape.lean` and `Json.lean`, and the small inductive relations at the head of
some `Props*.lean`. `Props*.lean` hold the property theorems with a concrete
instance (`example`) beside each. All other modules are lemmas.

### Representation choices

* **Input.** `List ι` with `size : ι → Nat`, `0 < size x`. Instances: bytes
  (size 1) and `Char` (UTF-8 width). `str::get(a..b)` succeeds iff both ends
  are item boundaries and in range: `dropB`/`takeB`. C47 and C51 prove that this
  is the same as working on the encoded bytes.
* **Context.** A context is (data, offset). Data never changes during a match,
  so evaluators take the data and an offset and return the new offset.
  `clone_at` (used by `RegexCond`) changes the data to the suffix.
* **Outcome.** `ok value offset | err error offset | panic`. `panic` covers
  subtraction underflow, failing `debug_assert!`, indexing out of bounds and
  `unimplemented!`. We model a build with overflow checks/debug assertions.
* **Evaluation.** Patterns are a deep embedding with user closures as
  functions. Evaluators are fuelled: `none` = not finished within the fuel.
  Theorems are about the fuel-free relations "there is an amount of fuel such
  that …" (`Runs`, `Parses`, `Constructs`); results are proved unique, so fuel
  never matters. Divergence = `none` for every fuel; `Den.lean`/`Eqs.lean`
  give the fuel-free equations.
* **Recursion.** `rec_parser` cells are a rule environment `Nat → Option Pat`
  (`none` = cell not initialised).
* **`usize`.** `Nat`. Subtraction underflow is a panic; overflow of additions
  and of `M * min_length()` does not occur in this model.  `Machine.lean` is a
  second model of matching and building, with 64-bit arithmetic and the
  compiler options as a parameter; C87 proves that both agree (texts of at most
  `isize::MAX` bytes, numbers in the pattern that fit), and where they do not.
* **Panics and guards.** A panic ends the run; what `Drop` does while unwinding
  is not observable without `catch_unwind` and is left out.

## 2. Trusted base

* Lean 4.33.0 kernel; axioms: at most `propext`, `Classical.choice`,
  `Quot.sound` for every theorem in the manifest (checked with
  `#print axioms`; no own axioms, no `sorry`, no `native_decide`). No Mathlib
  module is imported.
* The reading of the Rust code: every definition cites its lines. The
  equations of `Match.lean`/`Ctor.lean` need not be trusted separately: they are
  proved equal to the statement-level transliteration in `Imp.lean`.
  As a check of the reading, `Conform.lean`, `ConformLib.lean` (145 unit tests of `src/lib.rs`), `ConformDoc.lean` and
  `ConformMore.lean` run in the model
  the assertions of the crate's own tests (`/repo/tests`, all eleven files) and of
  the examples in its documentation (about 500 assertions; all hold). These are
  tests of the model, not claims.
* Standard-library behaviour taken as given: `str::get`, `is_char_boundary`,
  `char_indices`, `starts_with`, `Vec`, `Range::contains`, `chunks_exact`,
  `from_*_bytes` (given their documented meaning), `Mutex` (non re-entrant, held
  by at most one thread, a waiting thread goes on when it is free; a guard dropped by
  a panic unlocks and poisons its mutex, for good: `Poison.lean`),
  atomics (each load/store atomic; a `Relaxed` load may return any value stored
  so far). UTF-8 encoding is Lean core's `String.utf8EncodeChar`.
* `V::from_iter` in collect/sep_collect: the collection pulls items until the
  first `None` and keeps them in order (true for Vec and the std collections).
* User closures (mappers, handlers, conditions, tests, native patterns) are
  arbitrary total functions of their inputs; handlers may carry state and may
  panic. Non-terminating closures, and units or closures with hidden state other
  than `Prefix`, are not modelled.
* The std character predicates (`is_ascii_*`, `is_whitespace`, `is_control`,
  `to_digit`) and `iN/uN::from_str_radix` are written out from their
  documentation (`Classes.lean`, `NumText.lean`).
* `f64::from_str`, `FromStr`, `TryFrom` and `PartialOrd` of user or std types are
  parameters of the theorems.

* The forwarding impls (`&P`, `Box<dyn …>`, `Rc`, `Arc`, `Cell`, `RefCell`, `Option`,
  the adapters of `src/regex/adapter.rs` and `src/ctor/adapter.rs`;
  `src/regex.rs:105-247`, `src/ctor.rs:137-293`) around a whole pattern are `Wrap.lean`
  (C73). Inside other patterns they are read as a handle (`Pat.cell`) holding the
  content, or, for the adapters of `src/regex/adapter.rs` on a plain context, as
  `Pat.pat`; C73 says that these are the same. `None` is the handle without content
  (`Error::Option`). While parsing a `RefCell` is only borrowed immutably, so
  `borrow()` does not panic. `Mutex` is `RecSync.lean` and `Locks.lean`.

Not modelled: the text of log messages (what logging computes is `Log.lean`),
`Debug`/trait plumbing,
type-level dispatch, rustc's macro matcher (`Macro.lean` tries the
rules of `neu!`/`regex!` in order on token trees), floating point, heap and
ownership, running out of memory (the "capacity overflow" panics of
`Separate::construct` and `Repeat::construct` are C69), running time (C78 counts
calls), the byte size of stack frames (C77 counts nested calls).

## 3. Where the code and its documentation or evident intent disagree

Each is a theorem (`…_counterexample` is a concrete witness).

| Finding | Theorem |
|---|---|
| `*_ltm` arrays/slices/vectors leave the position where the last alternative stopped, not at the end of the chosen one | `C02_ltm_counterexample`, `C07_ltm_construct_counterexample`, `C29_ltm_forever_counterexample` |
| `repeat2::<M,N>`, `sep2::<M,N>`: with more than `N` elements in the input constructing panics instead of stopping after `N`; matching fails (`repeat2`) or takes `N + 1` (`sep2`) | `C14_*_counterexample`, `C17_*_counterexample` |
| `collect` while constructing may fail after consuming | `C20_collect_partial_consumption_counterexample` |
| `RegexBuilder`/`dthen`: a failing closure leaves the position after the first part | `C01_builder_counterexample`, `C20_dthen_counterexample` |
| a mapper or handler that fails leaves the position after the match | `C20_map_counterexample`, `C20_handler_counterexample` |
| hence a list element whose `try_map` fails is swallowed: the list ends behind its text and is accepted without it | `C20_dropped_element_counterexample` |
| so an array of numbers read with `try_map(from_str)` loses a last number that does not fit into the type: `[1, 9223372036854775808]` gives `[1]` | `C101_dropped_counterexample`, `C101_try_array` |
| `longest` under a non-idempotent skip policy ends elsewhere than its span | `C32_longest_policy_counterexample` |
| `Not` inherits `min_length` of the negated unit, so `times` may refuse input that matches | `C24_not_wide_char_counterexample` |
| `size_hint` of the span iterators underflows after exhaustion; the option-span iterators stop at the first gap; `ArrayStorer::spans` of an empty group is `Some` | `C38_size_hint_counterexample`, `C37_*_counterexample` |
| what the policy skipped is not given back when the match fails | `C31_failed_match_keeps_skip_counterexample` |
| the README's e-mail parser and the regular expression beside it accept different inputs (empty domain, dotted end, long domain) | `C64_empty_domain_counterexample`, `C64_dotted_end_counterexample`, `C64_long_domain_counterexample` |
| under a policy, matching and constructing may differ | `C19_policy_counterexample` |
| `PrefixSync`: two threads may use the same prefix slot, a rejection may be lost, the counter may rise | `C42_sync_*_counterexample` |
| `rec_parser_sync`: any re-entrance of the handle blocks for ever | `C34_sync_recursion_counterexample` |
| `rec_parser_sync`/`into_mutex`: two handles that use each other deadlock two threads that are each fine alone | `C67_deadlock_counterexample` |
| `sep(..).at_least(n)` and `repeat(n..)` panic ("capacity overflow") when constructing for a very large `n`, on every input; matching fails as it should | `C69_room_counterexample` |
| the documented number literal (`neu::prefix`) takes more than one literal: `0o7x9F` is matched whole, since the hexadecimal unit still waits for its `x` while the octal one accepts | `C70_radix_counterexample` |
| a policy such as `whitespace().many0()` around a context with a policy switches that one off: it is never applied | `C72_hides` |
| `Adapter::func(f)` implements `Regex`, but matching it panics (`unimplemented!`) | `C73_func` |
| nothing limits how deeply a recursive grammar nests, so for every stack size there is a text that overflows it (also in the JSON example) | `C77_no_limit_counterexample`, `C77_json_no_limit_counterexample` |
| `between::<M, N>` panics in a debug build on every input when `M * min_length()` overflows; past the end of the text `consume` succeeds in a release build; a sequence that begins with an `*_ltm` choice panics in a debug build and succeeds in a release build; `orig_sub` overflows before it checks | `C87_between_overflow`, `C87_past_end_counterexample`, `C87_ltm_counterexample`, `C87_orig_sub_counterexample` |
| backtracking remembers nothing: alternatives with a common recursive beginning take exponentially many calls | `C78_recursion_is_exponential` |
| an earlier alternative hides a later one that begins the same, a loop takes what its successor needs | `C79_hidden_counterexample`, `C79_greedy_counterexample` |
| blanks inside a token count; blanks between tokens are never needed (`ifx` for `if x`) | `C80_inside_counterexample`, `C80_keyword_counterexample` |
| a handle poisoned by a panic elsewhere is passed over in silence by `or`: the same call succeeds with another result | `C82_silent_change_counterexample` |
| a separated list whose element mapper refuses a text is accepted, although the text has no value in the grammar | `C83_unclean_counterexample` (see C20) |
| a recursive rule replaced by a pattern that behaves the same under the old rules may never return | `C84_rules_counterexample` |
| `repeat(2..=2)` of the unit `!'💝'` refuses `ab`, which the combinator `repeat(2..=2)` over its `once` takes | `C84_unfair_unit_counterexample` |
| inside a character `opt` of a unit succeeds where `between::<0, 1>` reports an error; past the end it panics | `C84_units_off_counterexample` |
| the error of `a.or(b)` is always that of `b`, even if `a` came further | `C85_furthest_counterexample` |
| `sep(..).skip(false)`: span and position disagree | `C02_sep_skip_counterexample` |
| `sep_collect` while constructing takes one element more than matching | `C18_sepCollect_counterexample` |
| unbounded loops over a pattern that matches empty never return | `C35_*_counterexample` |
| `CRange::is_empty` says `false` for `..0` and for "above `usize::MAX`"; `Bounded` reports the error of `SelectEq`; `try_mat_after` is documented as a lookahead but consumes the `after` pattern, and a failing `after` does not give the match back | `C39_is_empty_counterexample`, `C41_bounded_error_counterexample`, `C44_try_mat_policy` |
| `find` on a string tries positions inside characters | `C28_inside_character_counterexample` |
| merging a span into an enclosing one underflows | `C43_nested_span_counterexample` |
| `consume(n)` on a string may stop inside a character | `C03_consume_counterexample` |
| matching from a position past the end panics | `C04_past_end_counterexample` |
| the JSON example rejects `[]`, `{}`, `null`; accepts `[1,]` but not `[1, ]` | `C49_standard_json_counterexample`, `C49_documents` |
| `CtxGuard::inc` returns a span that begins where the guard was made | `C54_guard_inc_counterexample` |
| `a.or(b).then(c)` is not `a.then(c).or(b.then(c))`: a finished choice is never reopened (usual for PEG-like matching) | `C45_or_then_distrib_counterexample` |
| `start` inside a condition made of a pattern is met at every item: the condition is matched on a context that begins at the item | `C26_start_counterexample` (`C26_start_always` for every text) |
| in a context that skips, a search that finds nothing can leave the context behind the end of the text, where matching panics | `C91_past_end_counterexample` |
| `neu!()` expands to `$crate::neu::space()`, which does not exist, so it cannot be used | `C61_neu_empty_counterexample` |
| `whitespace` accepts U+000B, `ascii_whitespace` does not (as in std), so the `skip_ws` and `skip_ascii_ws` families differ on ASCII text | `C59_ascii_whitespace_vs_whitespace` |
| `examples/png2.rs:121-128` prints "critical" for chunks that are ancillary (lower case first letter) and "ancillary" for critical ones such as `IEND`; `examples/png.rs` has it right | `C97_critical_counterexample`, `C97_examples_agree_partial` |
| `ctx.dec(n)` below 0 panics in a debug build and wraps to a huge position in a release build, which later calls accept | `C98_dec_counterexample` |
| with `log`/`tracing` on, a debug build panics when a closure moves the context back inside e.g. `opt()`: `debug_ctor_reval!` computes `end - beg` | `C99_backwards_counterexample` |

Documentation only: `Between`'s documentation speaks of `[M, N)`, the code
accepts `M..=N` (C24).

## 4. Plan per property

| Id | Model part | Theorem shape / proof |
|---|---|---|
| C01 | Match | induction on fuel over all patterns: `err e o' → o' = o` for the class of patterns without builder closures that fail; counterexample for builder |
| C02 | Match | same induction: `ok s o' → s.beg = o ∧ o' = s.beg + s.len`; counterexamples for ltm, skip=false |
| C03 | Match, Data | same induction with boundary predicate; counterexample for `consume` on str |
| C04 | Match | same induction: result ≠ panic; counterexample past the end |
| C05 | Match with policy | induction with policy: `o ≤ s.beg`, `s.beg+s.len = o'`, `o' ≤ len` |
| C06–C12 | Match | characterisation (iff) theorems per combinator over the fuel-free relation |
| C13–C18 | Match, Ctor | refinement of loops to list specifications; counterexamples; what `sep2` and `sep_collect` do on all inputs: `PropsSepExact.lean` |
| C19, C20 | Match, Ctor | simulation by induction on fuel |
| C21 | Match, Ctor | characterisation + counterexample |
| C22–C26 | Unit, Match | equality with `takeWhile` specification |
| C27 | Match, Ctor | relational induction on fuel (shift): `Locality.lean`, `LocalityCtor.lean` |
| C28–C30 | Find | loop invariants; spec = least position; `PropsHangFind.lean`: a search hangs exactly if it tries (or yields) for ever or comes to a try that hangs; `PropsFused.lean`: the iterator called by hand, also after its end |
| C31, C32 | Match with policy | characterisation + counterexamples |
| C33 | Match | unfolding equation |
| C34 | RecSync | evaluator with held locks: stuck state; counterexample |
| C35 | Match | well-formedness ⇒ ∃ fuel; divergence theorem; `C35_hangs_iff`, `C35_every_hang_iff`, `C35_building_hangs_iff`: the only ways to hang are an endless chain of awaited calls and an endless loop |
| C36–C38 | Storer | induction over operation histories, refinement |
| C39 | Range | case analysis |
| C40, C41 | Mapper | round-trip by induction on bytes |
| C42 | Prefix | induction over items / over schedules |
| C43 | Data | arithmetic |
| C44 | Find | characterisation |
| C45 | Match | equations over the fuel-free relation |
| C46 | Ctor | induction |
| C47 | Utf8 | encoding of code points, prefix-freeness |
| C48 | Match | refinement to a list scanner |
| C49 | Ctor | round-trip by induction on the tree; for every conversion of numbers and every check of strings (`JConv`) |
| C50 | Match, Ctor | characterisation |
| C51 | Utf8Sim, Utf8Ctor | simulation by induction on fuel, for matching and for building (values up to a correspondence; for `ctor` it is `as_bytes`) |
| C52 | Ctor | characterisation |
| C53, C54 | Imp (guard) | induction over a guard's operation history |
| C55 | Imp, Match, Ctor | equality of two evaluators, induction on fuel, one lemma per construct |
| C56 | Png | each field read is computed; strong induction on the length, decomposition into chunks |
| C57 | Png | the register step is linear over xor and injective; induction on the bytes |
| C58 | Match; `Peg.lean` is Ford's semantics written from the paper | soundness by induction on fuel; completeness by showing that a run stops whenever the parsing expression has a result (induction on the derivation), the results then agree by soundness and uniqueness; units with a regex condition are guarded items `&f &e f` (`PegCond.lean`: the scan loop against the repetition of any such test; `PropsPegCond.lean`: the condition spelled out, the doc example's quoted string exactly) |
| C59 | Classes; the specification is explicit lists of characters | finite table below 128 checked by the kernel, above 128 by arithmetic for all code points |
| C60 | NumText, Match, Ctor; `Denotes` gives the value of a digit string by Horner's rule from the left | induction on the digit string, with the overflow check as an invariant; then C23/C52 for the pattern |
| C61 | Macro, Unit, Match; `Cls`/`Quant` say how a class or quantifier is written and what it means | case analysis on the rules in order, induction on the items; then C23/C24 for the run |
| C62 | Match with a policy; Peg/Ford as for C58, `AsPegIn W` writes the skip `W` in front of every part and after a loop that stopped on a failed attempt | fuel induction (a run is a derivation), induction on derivation height (a derivation gives a run), as for C58 with `W e` for each part |
| C63 | Ctor with and without a policy; `Attr.lean`: parsing expressions with values (`VPeg`, `Yields`), the reading of patterns (`AsVal`), where a failing element leaves the position (`Tail`) | induction on derivations of `Yields` (a derivation gives a run), fuel induction (a run is a derivation), C58/C62 for leaves and delimiters |
| C64 | `Email.lean`: the parsers as they are written, and the split of an input into name, domain and end | what each part takes from the input (`Takes.lean`), with C26 for the condition on the domain |
| C65 | `Api.lean`: the four shortcuts as the compositions they are; the run of blanks is written out (`Blank`, `Chars.blanks`, `Chars.unicodeBlanks`) | C08 for the composition, C23 for the run, C59 for the characters; laws from C45 |
| C66 | two rule environments and a relation between their patterns that is a bisimulation up to following handles (`RefactorSpec.lean`: `SameShape`, `Opens`, `Refactoring`) | the evaluators are monotone along `SameShape` (`Refactor.lean`); induction on fuel gives one direction, symmetry of the relation the other; the closure properties build the largest refactoring |
| C67 | the programs of `Imp.lean` with every handle writing down when it locks and unlocks (`Locks.lean`); threads as lists of lock operations under a scheduler that picks any thread that can go on (`Sys`) | a relation between logged and plain programs, kept by every statement (`LockRel.lean`, `LockStep.lean`), gives equal results and logs that are nested by rank; the invariant "each thread's rest of the log closes what it holds, innermost lowest" gives progress by induction on the rank of the handle waited for, and each step is one operation less |
| C68 | the methods that build the patterns, one definition each, with the records and defaults they fill in (`Surface.lean`) | unfolding to the pattern built and the characterisation of that constructor (C06 to C16, C50); lists through `Listing`, `InRow`, `Closed`, relations that only mention elements and separators |
| C69 | the same records with the allocation they ask for, against a limit `room` (`Separate.construct`, `Repeat.construct`) | case distinction on the limit; the panic for every larger number on every input is `C69_room_counterexample` |
| C70 | units that carry their state, `not`/`and`/`or` with short circuit, the scanning loops returning the unit afterwards, the documented number literal (`Stateful.lean`) | induction on the items asked about, against `SUnit.ask`; the literal through the steady states of the three radix units; the text beyond an octal literal is `C70_radix_counterexample` |
| C71 | contexts as values with their methods, `PolicyCtx` around any context, `BytesIndices` (`Context.lean`) | against pieces `pre ++ t ++ post` of the text; `clone_at` through the shift lemma of C27 (`Locality.lean`) |
| C72 | `try_mat` and `try_parse` for a list of policies (`matLayers`, `parseLayers`) | the limit of the fuelled function is the least solution of its equations, hence depends on the inner policies only through the outer one; then C13 for `comment.repeat(0..)` |
| C73 | patterns in stacks of containers with `try_parse`, `try_mat`, `construct` of each (`Wrap.lean`) | induction on the stack; `C73_inside` connects them with `Pat.cell` and `Pat.pat` so that C66 and C52 apply inside other patterns |
| C74 | both parsers of `bench/nom_cap.rs` and both searches of `bench/find.rs` (`Color.lean`) | the colour parser read as a valued parsing expression (C63), which yields what the `nom` parser computes; the search from C28 |
| C75 | the documented parser of `skip_ascii_whitespace` (`Circuit.lean`) against a grammar of texts with positions | read as a valued parsing expression in a skipping context (C63), computed by functions on the text to come (`Lex.lean`), which are shown equal to the grammar |
| C76 | two grammars over different value types (`ParamSpec.lean`) | the evaluators do the same at the same fuel: matching is equal, building is related, by induction on fuel through every combinator |
| C77 | the evaluators with a bound on nested calls only, not on loop rounds (`DepthSpec.lean`) | a bounded evaluator is below the unbounded one; upper bounds by a rank on patterns and the remaining input; lower bounds by following the calls from one opening bracket to the next |
| C78 | the imperative bodies of `Imp.lean` over a state that counts the calls (`WorkSpec.lean`) | counting is erased by parametricity of the bodies (`ImpRel.lean`); the bound by a weakest-precondition calculus per body (`Work.lean`) and induction on the derivation of `CallsAtMost` (`WorkBound.lean`); the exponential example by following the two alternatives level by level |
| C79 | the context-free derivations of a parsing expression and the LL(1) condition, as relation and as tables (`CfgSpec.lean`) | soundness by induction on Ford's semantics, completeness by induction on the derivation: the lookahead condition makes every earlier alternative fail and every loop stop (`PropsCfg.lean`); transported to patterns by C58 and C62 |
| C80 | texts that differ in their spacing, tokens, grammars with a skip before each token (`SpaceSpec.lean`) | induction on Ford's semantics (and on `Yields` for values), with the two texts in step at the tokens and the rests related (`Space.lean`); without blanks the skips take nothing and the grammar equals the one with skips erased (`SpaceErase.lean`); transported to patterns by C58, C62, C63 and combined with C79 (`PropsSpace.lean`) |
| C81 | plans (patterns as the calls they make), their tables and the condition that one item decides (`LinearSpec.lean`) | an evaluation of plans with its count (`Linear.lean`), a potential: every call is paid by the items consumed, failures before consuming are paid by a rate that grows with the rank (`LinearCost.lean`), the counted bodies do what the plan says (`LinearLink.lean`); `PropsLinear.lean`; for the JSON example the body of strings is measured by itself (`LinearPart.lean`, `PropsLinearJson.lean`) |
| C82 | the programs of `Imp.lean` along a list of mutex operations that contains the answers of `lock()`; threads as trees of operations, one branch per answer, under any scheduler; unwinding releases and poisons what the thread holds (`Poison.lean`) | a congruence over the programs (`Cong.lean`) with two instances: the list is used up as far as needed and no further, and it has a given form (`PoisonRel.lean`, `PoisonLemmas.lean`); an invariant of the threads (`PoisonSys.lean`); `PropsPoison.lean` |
| C83 | an independent relation: a text has a value along a derivation, unordered and not greedy (`MeansSpec.lean`); the condition that one item of lookahead decides, and its tables | with C63 between the code and the valued expressions: soundness by induction on the evaluation, completeness by induction on the derivation, termination without left recursion by length, rank and structure (`MeansLemmas.lean`); `PropsMeans.lean` with nested lists of numbers as a case |
| C84 | when two patterns behave alike, up to a chosen identification of errors (`RewriteSpec.lean`); the shapes of C66 say what is replaced | the evaluators' steps preserve the relation, combinator by combinator (`RewriteLemmas.lean`); for rules by induction on the evaluation under the new rules; `PropsRewrite.lean`; on positions of the input `PropsRewriteIn.lean`, the laws for units `PropsRewriteUnit.lean` |
| C85 | whose error is reported: which errors a pattern makes up itself and whose it hands on (`BlameSpec.lean`); the `Display` of `Error` (`Message.lean`) | induction on the evaluation, with a set of positions that the patterns do not leave (`BlameLemmas.lean`, `BlameCtor.lean`); `PropsBlame.lean` |
| C86 | both parsers of `bench/json.rs`, part by part (`BenchJson.lean`) | each part is alike to that of the example on positions of the input (C84), hence so are the rules; then C49; `PropsBenchJson.lean` |
| C87 | `Machine.lean`: the evaluators of `Match.lean` and `Ctor.lean` again, for a given build, with every `+`, `-`, `*` on `usize` explicit | simulation by induction on fuel with the invariant that spans and offsets stay inside the text (`MachineLemmas.lean`, `MachineCtor.lean`); a counter that would overflow belongs to a loop that does not end; results in a build are unique (`MachineMono.lean`); `PropsMachine.lean`, `PropsMachineJson.lean`; calls on a context: `PropsMachineCalls.lean` |
| C88 | no new code: an evaluator that stops where a pattern asks for the end of the text (`Settled.lean`, specification only) | induction on fuel, one lemma per primitive that a longer text gives the same (`SettledLemmas.lean`, `SettledCtor.lean`); the converse for primitives from C23 and C24 with two continuations; a terminator settles everything by induction on fuel with the invariant that positions stay before it (`SettledStop.lean`); `PropsSettled.lean` |
| C89 | no new code: a handler that keeps a protocol (`Told.lean`, specification only) | one induction over `construct` for every relation that composes along a value (`Track`, `track_inv`, `ToldLemmas.lean`), used for the protocol and for the order of spans; keeping a protocol is invisible by C76; `PropsTold.lean` |
| C90 | no new code: the readings of C63 in a plain and in a skipping context | the two readings of a pattern do the same where nothing can be skipped (`Space.VSame`, `ValErase.lean`: relation between valued expressions, one induction, used both ways by symmetry); then C80 and C83; `PropsMeansSpace.lean` |
| C91 | the search loops of `src/ctx.rs` with the positions of the attempts (`FindTrace.lean`) | induction on the rounds, with C04/C05 for one attempt and C78 for its calls; `PropsFindTrace.lean`; that the positions recorded are all the attempts: induction on the rounds, `PropsAttempts.lean` |
| C92 | the search loops of `src/ctx.rs` in the model of `PolicyCtx` | a failing or empty match started where nothing is to be skipped leaves the context in place (`calm_inv`, `Calm.lean`, induction on the pattern); then induction on what is left of the text; `PropsSkipFind.lean` |
| C93 | the search loop of `src/ctx.rs` | hits before the line end by C88 (a terminator settles what comes before it), hits behind it by C27 (a match depends on the text from its position on), no hit in between because a match cannot get past the line end; induction on the hits and on the lines; `PropsLines.lean` |
| C94 | `collect`/`repeat` over `suffix` | a line in place is the line alone: C88 (what follows the line end) and C27 for building (what is in front, `LocalityCtor.lean`, induction on the fuel); induction on the lines; `PropsRecords.lean` |
| C95 | every pattern and constructor, skip policies, searches | equality of the model's outcome on `d.map f` and on `d`, fuel for fuel (`Coarse.lean`); `PropsCoarse.lean` |
| C96 | the example of `skip_before` (`src/ctx/regex.rs:124-190`): skip, pattern, handler and printing loop | induction on the length of the text over `Built`, with C06, C12, C13, C23, C52; `PropsPicture.lean` |
| C97 | `examples/png.rs` as a function from the bytes of the file to the lines printed and the end of `main` (`PngPlain.lean`), what `examples/png2.rs` prints | induction on the chunks, with C57 (the checksum) and C56 (what `png2` accepts); partial because the two examples disagree on critical/ancillary; `PropsPngPlain.lean` |
| C98 | the evaluator of a build (`Machine.lean`) and sequences of context calls in a build (`MachineCalls.lean`) | "the build with more checks panics, or both agree at the same fuel" is preserved by every operation; induction on the fuel and on the calls; `MachineDebug.lean`, `PropsMachineDebug.lean` |
| C99 | `construct` with the messages of `debug_ctor_reval!` (`Log.lean`) | matching and building move forward in a build with overflow checks when the closures do, so the length in the message never underflows; induction on the fuel; `LogLemmas.lean`, `PropsLog.lean` |
| C100 | `Find.lean`, the text between the matches | `Cut`: gaps and matches by recursion on the text; induction on the matches found with C28; two cuts agree because a match cannot begin in a gap; `PropsCut.lean` |
| C101 | `ArrayDoc.lean`: the array of `src/ctor.rs:384-391`, and the same with `try_map` | `Items`/`Listed` say what may stand between the brackets; induction on the elements built and on the text, with C08, C12, C16, C23, C60; `PropsArray.lean` |
| C102 | `Find.lean` on strings and on bytes | at a boundary C51; inside a character every pattern with a definite beginning fails on both sides without moving (UTF-8 marks the bytes inside a character); induction on the rounds of the search; `PropsFindUtf8.lean`, `PropsFindUtf8Text.lean` |
| C103 | `Find.lean` with a literal, one item, a run of items | the specification is a scan by recursion on the text (`sweep`, `occurrences`, `picked`, `stretches`); positions without a match may be passed over (C28), inside a character nothing begins, at a boundary C12 and C23; induction on the text; `PropsSweep.lean`, `PropsSweepSeq.lean`, `PropsSweepMore.lean`; any pattern: `PropsSweepAny.lean` (from C27 and the alignment invariant) |
| C104 | `optNumPat`: the optional number of `src/ctor.rs:406-409` | C60 and C10 for building, C23 for matching; `PropsOptNumber.lean` |
| C105 | `ChatLog.lean`, the pattern of the documentation of `prefix` | what each part reads is stated exactly (`ChatLemmas.lean`: `Reads`, `Passes`) and put together by C08, C06 and C13; the records by induction; `PropsChat.lean` |
| C106 | `Tuple.lean`, the pattern of the documentation of `if_then` | as C105, with C09 for `if_then`; `PropsTuple.lean` |
