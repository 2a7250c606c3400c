{"id": "C01", "title": "Failed match leaves the position unchanged", "statement": "When try_mat returns Err on a plain RegexCtx (CharsCtx or BytesCtx), the context offset is exactly what it was before the call, for every pattern assembled from the library's own regex constructors and combinators (including recursive ones).", "quantifier": "every pattern of any shape and nesting depth, every input, every starting offset", "why_tests_cant": "a test fixes one pattern tree and one input; the documented guarantee is about every pattern tree, including trees whose inner parts fail after consuming input", "anchors": ["src/ctx.rs:Match::try_mat", "src/ctx/guard.rs:CtxGuard", "src/ctor/*.rs try_parse", "src/regex/builder.rs:into_regex_builder"]}
{"id": "C02", "title": "Successful match: span and position agree", "statement": "When try_mat returns Ok(span) on a plain RegexCtx, span.beg is the old offset and span.beg + span.len is the new offset. Holds for all combinators except the three documented as counterexamples: the *_ltm choices, and sep/sep2/sep_collect with skip = false.", "quantifier": "every pattern, input and starting offset", "why_tests_cant": "the offset and the span are maintained by separate code in every combinator; only induction over patterns shows that they never drift apart", "anchors": ["src/ctx.rs:Match::try_mat", "src/ctx.rs:new_span_inc", "src/span.rs:Span::add_assign", "src/regex.rs:handler_ltm", "src/ctor/sep.rs"]}
{"id": "C03", "title": "Matched spans are always valid slices", "statement": "Starting from a valid position (in bounds and on a character boundary), after any try_mat the offset is again a valid position, and for a success the matched span can be sliced out of the input (so Extract never fails). `consume(n)` on str is the exception: it can stop in the middle of a character.", "quantifier": "every pattern without consume on str, every input made of 1- to 4-byte characters, every valid offset", "why_tests_cant": "UTF-8 boundary bugs appear only for specific mixes of character widths and pattern structure", "anchors": ["src/ctx/regex.rs:orig_at, orig_sub, peek_at", "src/neu.rs:calc_length", "src/regex/consume.rs:Consume", "src/ctor/extract.rs"]}
{"id": "C04", "title": "Matching never panics from a valid position", "statement": "From an in-bounds position on a plain context no try_mat panics (no subtraction underflow, no debug assertion) for any pattern built from the library's regex constructors. From an offset beyond the end, the `len - offset` computations do panic (shown as a counterexample). Exceptions: *_ltm followed by another pattern can panic when spans are merged (counterexample); a dthen pattern has no matching mode; longest is covered on contexts without policy.", "quantifier": "every pattern, input and in-bounds offset", "why_tests_cant": "underflow needs particular offset/length relations reached only through nested combinators", "anchors": ["src/neu/*.rs try_parse", "src/regex/literal.rs", "src/regex/consume.rs", "src/span.rs:add_assign"]}
{"id": "C05", "title": "Matching only moves forward and never past the end", "statement": "On success the offset never decreases and never exceeds len(); the returned span lies between the old and the new offset; under a skip policy the span may begin later than the old offset but still ends at the new offset (for patterns without `longest`, *_ltm, and sep with skip=false). Under a policy the 'span ends at the new offset' part also excludes loops (repeat/collect/sep), whose failing last attempt has already skipped (counterexample).", "quantifier": "every pattern, every policy built from the same patterns, every input", "why_tests_cant": "depends on arbitrary nesting under a policy context", "anchors": ["src/ctx/policy.rs:PolicyCtx::try_mat", "src/ctor/*.rs"]}
{"id": "C06", "title": "Ordered choice takes the first alternative that matches", "statement": "p.or(q) behaves as p whenever p matches at the current position and otherwise as q from the same position; array/vector/slice choices return the result of the first listed alternative that matches and fail, with position unchanged, only if all fail. For Or the reported error is the one of the right alternative; for lists it is the list's own error.", "quantifier": "all patterns, alternative lists of any length, inputs and offsets", "why_tests_cant": "needs every list length and every pattern of partial consumption by failing alternatives", "anchors": ["src/ctor/or.rs", "src/ctor/array.rs", "src/ctor/vec.rs", "src/ctor/slice.rs", "src/regex.rs:handler"]}
{"id": "C07", "title": "Longest-match alternatives pick the longest result and stop at its end", "statement": "p.longest(q) yields whichever of p and q matches more (p on ties), advancing to the end of the winner. array/vector/slice with ltm yield a maximal-length match, the first among equals. The *_ltm forms should also leave the position at the end of that match; they do not (counterexample).", "quantifier": "all patterns, lists of any length, inputs", "why_tests_cant": "the defect only shows when the winner is not the last alternative tried", "anchors": ["src/ctor/longest.rs", "src/regex.rs:handler_ltm", "src/ctor.rs:handler_ltm"]}
{"id": "C08", "title": "Sequencing combinators match their parts consecutively", "statement": "then, prefix, suffix, enclose and sep_once succeed exactly when their parts match one after another, each starting where the previous one ended; the result span is the whole covered region; a failure of any part fails the whole with the error of that part and restores the position.", "quantifier": "all part patterns, inputs and offsets", "why_tests_cant": "must hold for arbitrary part patterns, including ones that match empty or restore", "anchors": ["src/ctor/then.rs:Then", "src/ctor/affix.rs", "src/ctor/enclose.rs", "src/ctor/sep.rs:SepOnce"]}
{"id": "C09", "title": "if_then is conditional continuation", "statement": "a.if_then(t, b): if a fails the whole fails; if t fails after a, the result is a alone with t's consumption undone; if t matches, b must match after t, else the whole fails with position restored.", "quantifier": "all a, t, b, inputs", "why_tests_cant": "three-way interaction of rollback scopes", "anchors": ["src/ctor/then.rs:IfThen"]}
{"id": "C10", "title": "opt never fails", "statement": "p.opt() always succeeds: with p's match when p matches, otherwise with an empty match at the unchanged position (None in value mode).", "quantifier": "all p, inputs, offsets", "why_tests_cant": "must hold even if p consumes before failing", "anchors": ["src/ctor/opt.rs:OptionPat"]}
{"id": "C100", "title": "Cutting a text at what a search finds loses nothing", "statement": "The texts find_all(p) returns and the pieces of the text between them, put together in order, are the text; no non-empty match of p begins in a piece between, every text returned is a non-empty match where it stands, and there is only one such way to cut, so splitting a text at p, or replacing what is found, is well defined. The texts match_seq(p) returns, put together, are the beginning of the text, and where they end p has no non-empty match.", "quantifier": "all texts (characters of any number of bytes), all starting positions, all patterns without *_ltm, dynamic builders and byte counts inside characters, recursive ones too", "why_tests_cant": "a gap can be lost, doubled or cut inside a character for some text, pattern and number of matches", "anchors": ["src/ctx.rs:find_all", "src/ctx.rs:find_all_with", "src/ctx.rs:match_seq", "src/ctor/extract.rs:Extract"]}
{"id": "C101", "title": "The documented array of numbers reads exactly the arrays, and gives all their numbers", "statement": "The array parser of the documentation (digits, separated by commas with blanks behind them, between brackets, parse::<i64>().unwrap()) succeeds exactly on one or more numbers of the type i64 between [ and ], with an optional comma at the end; the value is the vector of these numbers in order and the context stops right behind the bracket. It panics exactly when it reaches a number that is too large, and in every other case it reports an error and the context stays. Printing a non-empty vector of non-negative i64 and reading it back gives the vector. With try_map(from_str) in place of unwrap it never panics, but leaves out in silence a last number that is too large and has numbers before it.", "quantifier": "all texts, all positions in them, all numbers and lists of any length", "why_tests_cant": "a list ends at the first element that cannot be built, so a number can be lost for some lengths, blanks and values only", "anchors": ["src/ctor.rs:pat", "src/ctor/sep.rs:Separate", "src/ctor/map.rs:Map", "src/map.rs:from_str", "src/ctor.rs:skip_ws"]}
{"id": "C102", "title": "Searching a string and searching its bytes find the same", "statement": "For a pattern on strings and the corresponding pattern on bytes (the same combinators, literals replaced by their UTF-8 bytes, units that agree on ASCII and answer alike on everything else; builders leave a boundary) that begins with something definite (a non-empty literal or at least one ASCII character), find::<Span>, find_all::<Span> and match_seq::<Span> on the string and on its bytes, from every byte offset (inside a character too), return the same spans, leave the same offset, and end in the same cases; find and find_all for &[u8] give the bytes of what they give for &str. Without a definite beginning this is false: the byte search may match at a byte inside a character.", "quantifier": "all texts, offsets, grammars and corresponding pairs of patterns with a definite beginning", "why_tests_cant": "the string search tries every byte offset, also those inside characters, and the byte search tries the same ones with another meaning; tests look at a few, mostly ASCII, texts", "anchors": ["src/ctx.rs:find", "src/ctx.rs:find_all", "src/ctx.rs:match_seq", "src/ctx/regex.rs:peek_at", "src/ctx/regex.rs:orig_at"]}
{"id": "C103", "title": "Searching for a word, an item or a run is the plain scan of the text", "statement": "On a context without a skip policy, find_all with a literal returns the occurrences of the word from left to right without overlap, exactly as str::match_indices would; with unit.once() it returns every item the unit accepts; with unit.many1() it returns the longest runs of accepted items. Texts and spans are both as expected, the search may begin at any character boundary, and it leaves the position at the end of the input. The texts found for a literal are all the literal, the items found are the filtered text, and the runs are non-empty and joined together are the filtered text. match_seq with a literal returns one text for every copy of the word that stands at the position, with unit.once() the leading accepted items, with unit.many1() the one leading run. find_all with unit.many0() finds the same runs as with many1(), and with unit.between(m, n) (and count, at_least, at_most) every run is cut into pieces of at most n items, of which those with at least m are found (for units whose min_length is not larger than an item they accept, see C24). For any other pattern that returns, looks only at the remaining input and respects character boundaries, find_all is the same scan with the number of items the pattern takes from the beginning of each rest of the text, so it finds in the rest of a text what it finds in that rest alone. match_seq with such a pattern gives the texts it takes one after the other until it takes nothing.", "quantifier": "every text of characters or bytes, every start at a boundary, every literal (also the empty one), every unit; for the general form every pattern with these properties", "why_tests_cant": "there are infinitely many texts and words, self-overlapping words, words with multi-byte characters, and runs that touch the ends of the text; a test covers a few of each", "anchors": ["src/ctx.rs:find_all", "src/ctx.rs:find", "src/regex/literal.rs:Literal", "src/neu/once.rs:Many1", "src/neu/once.rs:Once", "src/ctx.rs:match_seq", "src/neu/times.rs:Between"]}
{"id": "C104", "title": "An optional number is read if it fits, otherwise None", "statement": "With digit(r).many1().try_map(from_str) made optional by opt() (the example of opt in the documentation), ctor never fails: where digits stand that write a number of the integer type it yields Some of that number and moves behind the digits; where no digit stands, and where the number does not fit the type, it yields None and does not move. try_mat with the same pattern does not read the number and moves behind the digits however large it is.", "quantifier": "every text, every position at a character boundary, every integer type, every radix from 2 to 36", "why_tests_cant": "the documentation tries two texts; the point where a number stops fitting depends on the type and the radix and there are infinitely many texts of digits", "anchors": ["src/ctor.rs:opt", "src/ctor/opt.rs:OptionPat", "src/map.rs:from_str", "src/neu/once.rs:Many1"]}
{"id": "C105", "title": "The documented chat log is read record by record", "statement": "The pattern of the documentation of prefix (time in brackets, three stars, a name, left or joined, one or more times) constructs, from any position, exactly the records that follow one another there: the times, names and statuses as written, in their order, whatever white space stands between and behind the parts. It goes behind the last record and its white space. Where no record stands it reports Error::Repeat and the position stays. Every non-empty printed list of records is read back.", "quantifier": "every text, every position at a boundary, every list of records, every name without white space, all Unicode white space between the parts", "why_tests_cant": "the documentation shows four lines; names that begin with a star, missing white space, a third digit, text behind the last record and Unicode blanks are infinitely many other texts", "anchors": ["src/ctor.rs:prefix", "src/ctor/affix.rs:Prefix", "src/ctor/sep.rs:SepOnce", "src/ctor/enclose.rs:Enclose", "src/ctor/repeat.rs:Repeat", "src/neu/times.rs:Between"]}
{"id": "C106", "title": "The documented pair with an optional second part is read exactly", "statement": "ctor with the pattern of if_then's documentation, val.if_then(\",\".skip_ws(), val).enclose(\"(\", \")\"), from any position of any text, succeeds exactly where (word) or (word, word) stands, with any white space behind the comma and none elsewhere; it stops behind the closing parenthesis and yields the words, the second being None exactly if it is not written. Everywhere else it is an error and the position stays.", "quantifier": "all texts, positions, words and white space", "why_tests_cant": "the documentation checks two texts; the claim is about every text, accepted or refused", "anchors": ["src/ctor/then.rs:IfThen", "src/ctor.rs:if_then", "src/ctor.rs:enclose", "src/ctor.rs:skip_ws"]}
{"id": "C11", "title": "Lookahead assertions are zero-width", "statement": "assert(p)/not(p) succeed exactly when p does/does not match here, always leave the position unchanged, and return an empty span at it; not(not(p)) succeeds iff assert(p) does.", "quantifier": "all p, inputs, offsets, policies", "why_tests_cant": "must hold for every p, including ones that do not restore the position", "anchors": ["src/regex/assert.rs:Assert", "src/ctx.rs:Assert::try_assert"]}
{"id": "C12", "title": "Primitive patterns match exactly what they say", "statement": "start/end match iff at offset 0 / at len; empty always matches empty; fail never matches; consume(n) matches exactly n bytes iff n bytes remain; consume_all takes the rest; a literal matches iff the remaining input begins with it.", "quantifier": "all literals, n, inputs, offsets", "why_tests_cant": "boundary relations between remaining length and literal length for all inputs", "anchors": ["src/regex/anchor.rs", "src/regex/empty.rs", "src/regex/fail.rs", "src/regex/consume.rs", "src/regex/literal.rs"]}
{"id": "C13", "title": "repeat(range) is greedy and respects its range", "statement": "p.repeat(range) applies p consecutively until p fails or the range's maximum is reached; it succeeds iff the number of applications is in the range, spanning all of them, and otherwise restores the position.", "quantifier": "all p, all range forms (included/excluded/unbounded bounds), inputs", "why_tests_cant": "off-by-one errors at either bound for every range", "anchors": ["src/ctor/repeat.rs:Repeat"]}
{"id": "C14", "title": "repeat2::<M,N> stops after N repetitions", "statement": "p.repeat2::<M,N>() should match between M and N consecutive occurrences and stop after N. The code attempts an (N+1)-th: value mode then panics and match mode fails (counterexample); with at most N consecutive matches available the behaviour is as documented.", "quantifier": "all p, M, N and inputs", "why_tests_cant": "the existing tests only use inputs with fewer than N+1 occurrences", "anchors": ["src/ctor/repeat2.rs:Repeat2"]}
{"id": "C15", "title": "collect is greedy with a minimum", "statement": "p.collect().at_least(min) applies p until it fails, succeeds iff at least min applications succeeded, returns the values in input order, and restores the position otherwise.", "quantifier": "all p that always consume, min, inputs", "why_tests_cant": "any number of iterations", "anchors": ["src/ctor/collect.rs:Collect"]}
{"id": "C16", "title": "sep parses separator-delimited lists", "statement": "p.sep(s) yields exactly the elements of the maximal p (s p)* [s] list, in order, succeeding iff there are at least `min`; with skip(true) a trailing separator is consumed and optional. With skip(false) an element without trailing separator is not returned but its input is consumed anyway (counterexample to span/position agreement).", "quantifier": "all p, s, min, inputs, list lengths", "why_tests_cant": "list length and trailing-separator cases are unbounded", "anchors": ["src/ctor/sep.rs:Separate"]}
{"id": "C17", "title": "sep2::<M,N> keeps at most N elements", "statement": "p.sep2::<_,M,N>(s) should return at most N elements. An (N+1)-th element makes value mode panic and match mode succeed with N+1 elements (counterexample); otherwise it agrees with sep.", "quantifier": "all p, s, M, N, inputs", "why_tests_cant": "existing tests never exceed N elements", "anchors": ["src/ctor/sep.rs:Separate2"]}
{"id": "C18", "title": "sep_collect agrees with sep", "statement": "p.sep_collect(s) should consume and return the same as p.sep(s) ('behaves identically'). In value mode it runs p and s once more after the list has ended and leaves the position after them (counterexample); it agrees when p does not match directly after an element.", "quantifier": "all p, s, min, inputs", "why_tests_cant": "the defect needs two adjacent elements without separator", "anchors": ["src/ctor/sep.rs:SepCollect"]}
{"id": "C19", "title": "Matching and constructing agree", "statement": "On a plain context, for the same pattern, constructing a value (ctor) succeeds iff try_mat succeeds and both leave the same position, and they fail with the same error and position, whenever the handler and all mappers succeed, for all combinators other than *_ltm, sep_collect, repeat2/sep2 overflow and dynamic builders. Under a skip policy the two can leave different positions (counterexample).", "quantifier": "all patterns (incl. recursive), inputs, offsets, total handlers and mappers", "why_tests_cant": "two independent implementations per combinator must agree on every input", "anchors": ["src/ctor/*.rs construct and try_parse"]}
{"id": "C20", "title": "Failed construction and position", "statement": "Value construction restores the position when a sub-pattern fails inside then/or/opt/enclose/prefix/suffix/sep_once/if_then/branch/repeat/collect/sep/longest. It does not when a mapper, handler or a dynamic-builder closure fails at top level (counterexamples); every enclosing or/opt/then/branch still restores.", "quantifier": "all patterns, handlers, mappers, inputs", "why_tests_cant": "failures can come from any nested mapper or handler", "anchors": ["src/ctor/map.rs:Map", "src/ctor/dthen.rs", "src/regex.rs:RegexRefAsCtor"]}
{"id": "C21", "title": "Dynamic patterns continue from the first match", "statement": "into_regex_builder/dyn then: the pattern computed from the first result is matched right after it; success yields the second span (regex) or both values (ctor); if either pattern fails the position is restored. If the closure fails the position is not restored, contrary to the documentation (counterexample).", "quantifier": "all patterns, closures, inputs", "why_tests_cant": "depends on data-dependent continuation patterns", "anchors": ["src/regex/builder.rs", "src/ctor/dthen.rs"]}
{"id": "C22", "title": "Unit operators form a Boolean algebra", "statement": "not/and/or on units accept exactly the complement/intersection/union of the accepted items (so De Morgan, distributivity, double negation hold); ranges accept exactly the items between their bounds; arrays/slices accept exactly their members.", "quantifier": "all units, all items", "why_tests_cant": "set-theoretic laws over all items", "anchors": ["src/neu/op_not.rs", "src/neu/op_and.rs", "src/neu/op_or.rs", "src/neu.rs", "src/neu/range.rs"]}
{"id": "C23", "title": "once/opt/many0/many1 match the exact maximal run", "statement": "unit.many0()/many1() consume exactly the longest run of consecutive items accepted by the unit (and condition); many1 fails on an empty run; once/opt consume exactly one accepted item or fail/match empty.", "quantifier": "all units, conditions, inputs (any item widths), offsets", "why_tests_cant": "arbitrary run lengths and character widths", "anchors": ["src/neu/once.rs", "src/neu/opt.rs", "src/neu.rs:calc_length"]}
{"id": "C24", "title": "between/times/count/at_least/at_most count correctly", "statement": "between::<M,N> (M..=N items, despite the documented [M,N)), times(range), count, at_least, at_most consume the longest accepted run cut at the maximum and succeed iff its length is in range - for units whose minimal length does not exceed the size of any item they accept. For a negated wide character (e.g. '💝'.not()) the length pre-check rejects valid input (counterexample).", "quantifier": "all units, bounds, inputs", "why_tests_cant": "needs all bound/run-length/width combinations", "anchors": ["src/neu/times.rs:Between, Times", "src/neu/op_not.rs:min_length"]}
{"id": "C25", "title": "unit.then(unit) matches two consecutive items", "statement": "a.then(b) on units matches iff the next item is accepted by a and the following one by b (and the condition holds for both), consuming exactly these two.", "quantifier": "all units, inputs", "why_tests_cant": "item widths; length pre-check", "anchors": ["src/neu/then.rs:NeureThen"]}
{"id": "C26", "title": "Per-item conditions look ahead from the item", "statement": "set_cond(regex_cond(r)) restricts a repetition to items at which r matches, r being run on the input that starts at that item; checking does not move the position.", "quantifier": "all r, inputs, item positions", "why_tests_cant": "the condition runs on a re-based clone of the context at every item", "anchors": ["src/neu/cond.rs:RegexCond", "src/ctx/regex.rs:clone_at"]}
{"id": "C27", "title": "Matching depends only on the remaining input", "statement": "For patterns not using the start anchor, matching at offset k of an input gives the same outcome, shifted by k, as matching the suffix from offset 0, and building gives the same value. With `start` this fails (counterexample).", "quantifier": "all patterns without start anchor, inputs, valid offsets", "why_tests_cant": "relational property over pairs of runs", "anchors": ["src/ctx/regex.rs:clone_at", "src/regex/anchor.rs", "src/neu/cond.rs"]}
{"id": "C28", "title": "find returns the leftmost non-empty match", "statement": "find(p) returns the non-empty match at the smallest position at or after the current one where p matches non-emptily, leaving the position after it; returns None iff there is none.", "quantifier": "all well-behaved p, inputs, offsets", "why_tests_cant": "leftmost-ness quantifies over all earlier positions", "anchors": ["src/ctx.rs:MatchMulti::find, find_with"]}
{"id": "C29", "title": "find_all enumerates non-overlapping matches and ends", "statement": "find_all(p) yields the sequence of leftmost non-empty matches, each starting at or after the end of the previous, and is finite. With an *_ltm pattern it can yield the same match forever (counterexample). Calling next() by hand gives the same items, then None, and None again for every further call, without moving the position.", "quantifier": "all well-behaved p, inputs", "why_tests_cant": "sequence property of unbounded length", "anchors": ["src/ctx.rs:MatchMulti::find_all_with"]}
{"id": "C30", "title": "match_seq yields exactly the contiguous matches", "statement": "match_seq(p) yields the maximal sequence of consecutive non-empty matches from the current position, each starting where the previous ended, then stops with the position at the end of the input.", "quantifier": "all well-behaved p, inputs", "why_tests_cant": "unbounded sequences", "anchors": ["src/ctx.rs:MatchMulti::match_seq"]}
{"id": "C31", "title": "Skip policy runs before each match and is excluded from spans", "statement": "On ctx.skip_before(q), try_mat(p) first applies q, then p; the span of a primitive p covers only p. When p fails, what q skipped stays skipped, although try_mat documents an unchanged offset (counterexample). try_mat_before/after/policy consume the before and after patterns and return only p's span.", "quantifier": "all q, p, inputs", "why_tests_cant": "policy is re-applied at each nested level", "anchors": ["src/ctx/policy.rs", "src/ctx/regex.rs:try_mat_policy"]}
{"id": "C32", "title": "longest and policy", "statement": "p.longest(q) should leave the position at the end of the winning span also under a skip policy. Without a policy, and under a policy that skips nothing where it has just stopped (e.g. many0 white space), it does. Under a policy that can skip again at its own end position it leaves the position too early (counterexample).", "quantifier": "all p, q, policies, inputs", "why_tests_cant": "needs a policy that actually skips", "anchors": ["src/ctor/longest.rs:try_parse"]}
{"id": "C33", "title": "Recursive patterns behave as their unfolding", "statement": "A rec_parser pattern behaves exactly as its body with the handle replaced by the pattern itself; a handle used before initialisation reports Error::Option.", "quantifier": "all recursive grammars, inputs, recursion depths", "why_tests_cant": "unbounded recursion depth", "anchors": ["src/regex/rec.rs:rec_parser"]}
{"id": "C34", "title": "rec_parser_sync and re-entrance", "statement": "rec_parser_sync should behave as rec_parser. It holds a mutex while parsing the body, so any input that makes the parse re-enter the handle blocks forever (counterexample); inputs that do not re-enter agree with rec_parser.", "quantifier": "all recursive grammars, inputs", "why_tests_cant": "a hang is not observable by a finite test", "anchors": ["src/regex/rec.rs:rec_parser_sync", "src/regex.rs:impl_forward_regex Mutex"]}
{"id": "C35", "title": "Termination", "statement": "Matching terminates on every input if loop bodies (repeat/collect/sep elements) never match empty and recursion always consumes first; an unbounded repeat/collect/sep over a pattern that matches empty never returns (counterexample). Exactly: a match, or the building of a value, never returns if and only if it waits for a call that waits for a call and so on without end, or comes to a loop all of whose rounds succeed for ever (or, building, to a match that never returns).", "quantifier": "all grammars satisfying the condition, all inputs", "why_tests_cant": "termination is not testable", "anchors": ["src/ctor/repeat.rs", "src/ctor/collect.rs", "src/ctor/sep.rs", "src/regex/rec.rs"]}
{"id": "C36", "title": "VecStorer is an append-only log per group", "statement": "After any history of add_span/clr_span/reset/try_cap calls, group i contains exactly the spans added to it since its last clear, in order; other groups are unaffected; failed captures add nothing.", "quantifier": "all histories of operations, any number of groups", "why_tests_cant": "quantifies over operation histories", "anchors": ["src/span.rs:VecStorer"]}
{"id": "C37", "title": "ArrayStorer is an array of optional spans", "statement": "After any history of set_span/clr_span/reset/try_cap calls each cell holds the last span written since it was cleared. contain(id) is true iff some cell is set. spans_iter/slice_iter stop at the first unset cell even if later cells are set (counterexample to iterating 'all spans in a group').", "quantifier": "all histories, M, N", "why_tests_cant": "quantifies over operation histories", "anchors": ["src/span.rs:ArrayStorer", "src/iter/span.rs"]}
{"id": "C38", "title": "Span iterators yield the spans and slices in order", "statement": "spans_iter yields the group's spans in order; slice_iter yields their slices up to the first span that is not a valid slice; BytesIndices yields every byte with its index; their size hints are exact until exhaustion. After exhaustion the slice iterators' size_hint underflows (counterexample).", "quantifier": "all span lists, inputs, numbers of next() calls", "why_tests_cant": "unbounded call histories", "anchors": ["src/iter/span.rs", "src/iter/byte.rs"]}
{"id": "C39", "title": "Ranges convert faithfully", "statement": "Converting a Rust range (or an integer n, meaning n..=n) into CRange preserves membership of every value; is_empty is correct except for ..0 and a start excluded at usize::MAX (counterexamples).", "quantifier": "all ranges over all values", "why_tests_cant": "all bound combinations", "anchors": ["src/neu/range.rs"]}
{"id": "C40", "title": "Integer decoding inverts encoding", "statement": "from_le_bytes/from_be_bytes decode the first size_of::<T>() bytes of the slice to the integer whose little/big-endian representation they are, for every width; shorter slices give an error; extra bytes are ignored.", "quantifier": "all byte slices and integer widths", "why_tests_cant": "2^128 values", "anchors": ["src/map.rs:impl_from_bytes"]}
{"id": "C41", "title": "Mappers do what they say", "statement": "bounded(min,max) passes v iff min <= v < max; select0/1 project; select_eq/select_neq pass equal/unequal pairs unchanged; with_default never fails and is the inner mapper when that succeeds. bounded reports Error::SelectEq rather than Error::Bounded (counterexample).", "quantifier": "all values", "why_tests_cant": "all values of any type", "anchors": ["src/map.rs"]}
{"id": "C42", "title": "Prefix unit checks the prefix on the first n items", "statement": "prefix_cnt(p, n, u) accepts a run iff its first n items satisfy p and the later ones u; after a rejected prefix item it rejects everything. For the Sync variant used by several threads, two threads may both consume the same prefix slot and a rejection may be lost (counterexample schedules); the counter never underflows.", "quantifier": "all item sequences; all thread interleavings", "why_tests_cant": "schedules", "anchors": ["src/neu/prefix.rs:Prefix, PrefixSync"]}
{"id": "C43", "title": "Span merging is interval hull", "statement": "a.add_assign(b) for b starting at or after a's end yields the smallest span covering both; it is associative and adjacent spans add their lengths; it panics (debug) when b ends before a ends.", "quantifier": "all spans", "why_tests_cant": "all pairs/triples of spans", "anchors": ["src/span.rs:add_assign"]}
{"id": "C44", "title": "Context-level helpers", "statement": "is_mat equals try_mat's success and moves the position the same way; try_assert/assert never move the position and report whether the pattern matches; try_mat_policy composes the three patterns in order.", "quantifier": "all patterns, inputs", "why_tests_cant": "all patterns", "anchors": ["src/ctx.rs"]}
{"id": "C45", "title": "Algebraic laws of patterns", "statement": "In match mode `then` is associative with unit `empty` and zero `fail` on the left; `or` is associative with left unit fail and right unit fail up to the reported error; then distributes over or on the left; opt(p) = or(p, empty); double assertion collapses.", "quantifier": "all patterns, inputs", "why_tests_cant": "equations over all patterns and inputs", "anchors": ["src/ctor/then.rs", "src/ctor/or.rs", "src/ctor/opt.rs", "src/regex/empty.rs", "src/regex/fail.rs"]}
{"id": "C46", "title": "Constructed slices reproduce the input", "statement": "On a plain context with the default extract handler every leaf value is exactly the slice of the input its pattern matched; for leaves combined with then/or/opt/longest/repeat/collect/branch/recursion the extracted slices concatenate to the text between the start and end position; the handler is called once per leaf of the value in input order, for patterns in which abandoned attempts fail before reaching the handler (counterexample otherwise).", "quantifier": "all patterns of leaves and sequences, inputs", "why_tests_cant": "all inputs", "anchors": ["src/ctor/extract.rs", "src/ctx.rs:MatchExt::ctor"]}
{"id": "C47", "title": "String literals: bytes versus characters", "statement": "For str input, comparing UTF-8 bytes (as starts_with does) is the same as comparing characters, so the byte length of a matched literal is the sum of its characters' widths.", "quantifier": "all strings", "why_tests_cant": "all code points", "anchors": ["src/regex/literal.rs"]}
{"id": "C48", "title": "escape_strval! recognises string bodies", "statement": "The pattern produced by escape_strval!(quote, prefix, escapes) always succeeds and terminates, consuming the maximal prefix in which every quote character is part of an escape pair.", "quantifier": "all inputs, quote/prefix/escape sets", "why_tests_cant": "all inputs", "anchors": ["src/macro.rs:escape_strval"]}
{"id": "C49", "title": "The JSON example parses what a printer prints", "statement": "JsonParser::parse of examples/json.rs returns a tree after consuming n bytes exactly when the first n bytes are a document of an explicitly given context-free grammar denoting that tree; on every other input it returns an error (never loops or panics). In particular parsing the rendering of any supported array/object tree gives the tree back. (The empty array, the empty object and `null` of standard JSON are rejected.)", "quantifier": "all byte strings, all JSON trees of the supported shape, any depth and length, any number-decoding function", "why_tests_cant": "unbounded trees", "anchors": ["examples/json.rs"]}
{"id": "C50", "title": "Branch selects by its test", "statement": "branch(test, p, q) evaluates the test on the unchanged context and behaves as p or q accordingly, restoring the position if the selected one fails; an error from the test is returned with the position unchanged.", "quantifier": "all tests, patterns, inputs", "why_tests_cant": "all tests and patterns", "anchors": ["src/ctor/branch.rs"]}
{"id": "C51", "title": "The same grammar on a string and on its bytes", "statement": "A pattern built from string literals, ASCII units, unlimited runs of complements of ASCII units and any combinators, matched on a str context, gives at every character boundary the same span, error and final offset as the corresponding byte pattern matched on the UTF-8 bytes of that string. Building agrees too: with corresponding handlers, mappers, tags and builders, constructing gives corresponding values, errors, offsets and handler states; ctor on the bytes returns exactly the bytes of what ctor on the string returns, and ctor_span the same spans.", "quantifier": "all strings, all grammars of that shape (recursive ones included), all policies, all boundary offsets", "why_tests_cant": "all grammars and all Unicode strings", "anchors": ["src/ctx/regex.rs:Context for RegexCtx<str>", "src/ctx/regex.rs:Context for RegexCtx<[u8]>", "src/regex/literal.rs", "src/neu/once.rs", "src/neu/opt.rs", "src/neu/times.rs", "src/neu/then.rs"]}
{"id": "C52", "title": "Constructing a primitive calls the handler once with its span", "statement": "Constructing a primitive pattern (or p.pat(), or ctx.map_handler/ctx.map) matches it once and passes exactly the matched span to the handler once; a match error is returned without calling the handler. p.map(f)/try_map(f) applies f once to p's value; an error of f becomes the result and the position is not reset. Constructing a recursive reference equals constructing its body; an unset one is an error that moves nothing.", "quantifier": "all primitive patterns, inputs, positions, handlers with any state, mapping functions", "why_tests_cant": "quantifies over arbitrary handlers, mappers and inputs", "anchors": ["src/ctor.rs", "src/ctx.rs:map_handler", "src/ctor/map.rs", "src/ctor/pat.rs", "src/regex/rec.rs"]}
{"id": "C53", "title": "A guard rolls back exactly when it was told of a failure", "statement": "For a CtxGuard made at offset o and used in any way (inc, reset, process_ret, try_mat, ctx()), when it is dropped, at the end of the function or through `?`, the context is at o again iff some result given to process_ret or some try_mat through the guard was an error, whatever happened later; otherwise it is where the last operation left it. beg() is always o. A guard made during the life of another restores the offset it was itself made at and does not affect the outer one.", "quantifier": "all sequences of guard operations and their outcomes, all offsets", "why_tests_cant": "all histories of operations", "anchors": ["src/ctx/guard.rs:CtxGuard"]}
{"id": "C54", "title": "CtxGuard::inc returns the span of the bytes it advances over", "statement": "guard.inc(len) advances the context by len and returns the corresponding span, i.e. the one beginning at the offset before the call.", "quantifier": "all histories of the guard before the call, all lengths", "why_tests_cant": "all histories of operations", "anchors": ["src/ctx/guard.rs:CtxGuard::inc"]}
{"id": "C55", "title": "The combinators' bodies compute what their description says", "statement": "Executing the body of try_parse or construct of any pattern statement by statement, over a context with one mutable offset, with guards and their drops, `?`, set_offset on error, loops with break and arrays assigned slot by slot, gives for every pattern and input exactly the span, value, error, panic, final offset and handler state that the compositional semantics used in all the other properties gives.", "quantifier": "all patterns (recursive ones included), inputs, offsets, policies, handlers", "why_tests_cant": "equivalence of two semantics over all programs", "anchors": ["src/ctor/then.rs", "src/ctor/affix.rs", "src/ctor/enclose.rs", "src/ctor/sep.rs", "src/ctor/or.rs", "src/ctor/longest.rs", "src/ctor/opt.rs", "src/ctor/repeat.rs", "src/ctor/repeat2.rs", "src/ctor/collect.rs", "src/ctor/branch.rs", "src/ctor/map.rs", "src/ctor/dthen.rs", "src/ctor.rs:handler", "src/regex.rs:handler", "src/regex/builder.rs", "src/regex/assert.rs", "src/neu/once.rs", "src/neu/opt.rs", "src/neu/times.rs", "src/neu/then.rs"]}
{"id": "C56", "title": "The PNG example reads exactly well-formed chunk sequences", "statement": "Reading a file with the png2 example (consume(n).try_map(from_be_bytes()/fixed_size(..)) through ctx.ctor) ends with the list of chunks exactly if the file is the 8-byte PNG head followed by these chunks in order, each with its announced data length and the right CRC, and fewer than four trailing bytes; it reports 'not a png file' exactly if the head is missing, returns an error exactly if a chunk is cut off, and panics exactly if a complete chunk has a wrong CRC. It always ends, and the chunk list is determined by the bytes.", "quantifier": "every byte sequence, any number and size of chunks", "why_tests_cant": "a test reads a few files; data lengths, cut-off points and checksums range over all byte sequences", "anchors": ["examples/png2.rs:parse", "examples/png2.rs:Trunk::new", "examples/png2.rs:Png::new", "src/regex/consume.rs:Consume", "src/map.rs:FromBeBytes", "src/map.rs:FixedSize", "src/ctor/map.rs:Map"]}
{"id": "C57", "title": "The example's table-driven checksum is CRC-32", "statement": "calc_crc(buff) returns the CRC-32 of buff as defined bit by bit (reflected polynomial EDB88320, preset to ones, complemented), without ever indexing outside its table; two buffers that differ in at most four consecutive bytes never have the same checksum.", "quantifier": "every byte sequence; every pair of sequences that differ within four consecutive bytes", "why_tests_cant": "the table algorithm must agree with the bitwise definition on all inputs; a test compares a few check values", "anchors": ["examples/png2.rs:calc_crc", "examples/png2.rs:initialize_crc_table", "examples/png.rs:calc_crc"]}
{"id": "C58", "title": "Patterns are parsing expressions", "statement": "Reading once/many0/many1/opt/times of units as character classes with the usual repetition operators, then/prefix/suffix/enclose as sequence, or/opt/choice as prioritised choice, repeat/collect as greedy repetition, sep/sep_collect as (e s)* e?, a unit with set_cond(regex_cond(q)) as an item of the class preceded by the predicate q, assert/not as syntactic predicates and recursive handles as nonterminals, try_mat succeeds with a span exactly if the parsing expression succeeds (in Ford's semantics) on the remaining input consuming the text of that span, fails without moving exactly if the parsing expression fails, never panics, and returns at all exactly if the parsing expression has a result. Conversely every parsing expression grammar can be written this way; e.g. the strings a^n b^n c^n are recognised exactly, and the documentation's quoted string takes exactly the nonempty bodies whose inner quotes follow a backslash.", "quantifier": "every pattern built from these operations, every set of recursive rules, every input and every position", "why_tests_cant": "the equivalence ranges over all grammars and inputs, including those on which matching does not end", "anchors": ["src/ctx/regex.rs:try_mat", "src/ctor/then.rs", "src/ctor/or.rs", "src/ctor/opt.rs", "src/ctor/repeat.rs", "src/ctor/repeat2.rs", "src/ctor/collect.rs", "src/ctor/sep.rs", "src/ctor/vec.rs", "src/ctor/enclose.rs", "src/ctor/affix.rs", "src/regex/assert.rs", "src/regex/rec.rs", "src/neu/once.rs", "src/neu/opt.rs", "src/neu/times.rs", "src/neu/then.rs", "src/neu/cond.rs:regex_cond", "src/ctor.rs:or"]}
{"id": "C59", "title": "Character classes accept exactly the documented characters", "statement": "Each unit of neu::units (ascii, ascii_alphabetic, ascii_alphanumeric, ascii_control, ascii_digit, ascii_graphic, ascii_hexdigit, ascii_lowercase, ascii_punctuation, ascii_uppercase, ascii_whitespace, control, whitespace, digit(radix), wild, word) accepts exactly the characters (and bytes, where the unit exists for bytes) written out in a list: digit(r) accepts the first r of 0-9a-z/0-9A-Z and nothing else, wild everything but a line feed, word letters, digits and underscore. The char and byte versions of an ascii unit agree on every text and its UTF-8 bytes; ascii_whitespace and whitespace differ below 128 on exactly the vertical tab.", "quantifier": "every Unicode scalar value, every byte, every radix up to 36", "why_tests_cant": "a test tries some members and non-members; an off-by-one bound shows up on one code point of 1.1 million", "anchors": ["src/neu/units.rs:ascii_digit", "src/neu/units.rs:digit", "src/neu/units.rs:wild", "src/neu/units.rs:word", "src/neu/units.rs:whitespace"]}
{"id": "C60", "title": "Number patterns return the number that is written", "statement": "With from_str_radix(r) as the mapper, digit(r).many1() matches the whole run of digits at the position and yields the number that run denotes in radix r if it fits the integer type, and the conversion error otherwise; nothing ever wraps or is cut short. With an optional leading sign matched first, the sign is honoured. Every number in range, written in the usual way, is read back.", "quantifier": "every text and position, every radix 2..=36, every signed or unsigned integer width", "why_tests_cant": "ranges over all digit strings of any length, including those just beyond the range of the type", "anchors": ["src/map.rs:FromStr", "src/map.rs:from_str_radix", "src/neu/units.rs:digit", "src/ctor/map.rs:Map", "src/neu/times.rs:Many1"]}
{"id": "C61", "title": "neu! and regex! mean the class and count that is written", "statement": "Every class the neu! macro accepts (^ . a 'a' [a b c] [^ a b] [a - z A - Z] [^ 'a' - 'z'] (u1, u2)) expands to a unit that matches exactly the characters written, and nothing outside this notation expands. regex! with an atom and a quantifier (none * ? + {n} {n,} {n,m}) matches the longest run of characters of the class allowed by the quantifier, and fails with the quantifier's error when the run is too short. neu!() names a function that does not exist and never expands.", "quantifier": "every class of any number of items, every quantifier, every text and position, any skip policy", "why_tests_cant": "the notation is infinite (lists of items and ranges of any length), each with every character as input", "anchors": ["src/macro.rs:neu", "src/macro.rs:regex"]}
{"id": "C62", "title": "A skipping context matches as if the skip were written before every part", "statement": "In a context made with skip_before/skip_whitespace/skip_ascii_whitespace whose skipped pattern leaves nothing to skip, a pattern built from literals, units, sequences, choices, options, assertions, repetitions, separated lists and recursive handles succeeds exactly when the same parsing expression with the skip written in front of every part does, ending at exactly that position, and fails exactly when it does, giving back everything but the skipped text. The span begins right after the text skipped first. The run ends exactly when the parsing expression has a result. The same result can be had in a plain context by writing the skip by hand.", "quantifier": "every pattern of these forms (any depth, recursive ones too), every input and position, every skipped pattern that is itself such a pattern without recursion and skips all at once", "why_tests_cant": "where the skip happens (before, after, between, after a failed attempt) shows only on particular placements of blanks in particular nestings; the claim is about all of them", "anchors": ["src/ctx/policy.rs:try_mat", "src/ctx.rs:Match", "src/ctx/regex.rs:skip_before", "src/ctx/regex.rs:skip_whitespace", "src/ctor/repeat.rs:Repeat", "src/ctor/sep.rs:Separate"]}
{"id": "C63", "title": "Constructed values are the values of the parsing expression", "statement": "Reading a pattern as a parsing expression whose parts have values - a leaf gives the value of the text it matches, then a pair, or/choice the value of the first alternative that succeeds (pair alternatives together with their tag), longest the value that reaches further, opt and if_then optional values, repeat/collect/sep the list of the elements' values in order, prefix/suffix/enclose/sep_once drop the delimiters, try_map a function that may be undefined (then the expression fails), dyn_then_ctor a choice of what follows by the value, recursive handles nonterminals - ctor returns a value exactly if the parsing expression yields that value, ending exactly where it ends, fails exactly if it fails, never panics and returns exactly if it has a result. This holds in a plain context and in a context that skips something before every leaf and delimiter. With ctor the value of a text is the text itself, with ctor_span its position and length.", "quantifier": "every pattern built from these operations, every set of recursive rules, every handler that makes its value from the text (and its place) alone, every mapper, every input and position", "why_tests_cant": "it relates every composition of combinators to an independent semantics, on all inputs including those where construction does not end", "anchors": ["src/ctor.rs:Ctor::construct", "src/ctor/then.rs", "src/ctor/or.rs", "src/ctor/opt.rs", "src/ctor/longest.rs", "src/ctor/branch.rs", "src/ctor/map.rs", "src/ctor/dthen.rs", "src/ctor/repeat.rs", "src/ctor/collect.rs", "src/ctor/sep.rs", "src/ctor/enclose.rs", "src/ctor/affix.rs", "src/ctor/extract.rs", "src/ctx.rs:ctor_handler", "src/ctx/policy.rs"]}
{"id": "C64", "title": "The README's e-mail parser against the regular expression beside it", "statement": "The e-mail parser of the README (and of the benchmarks) accepts exactly the inputs of the regular expression it is compared with, ^([a-z0-9_\\.\\+-]+)@([\\da-z\\.-]+)\\.([a-z\\.]{2,6})$, and its capturing version returns the same three parts. (As found: it accepts exactly the inputs name@domain.end over these classes where the domain reaches to the last dot of the input and has at most 256 characters, possibly none, or has exactly 256; so it differs from the expression for an empty domain, an end with a dot, and domains over 256 characters.)", "quantifier": "every input string", "why_tests_cant": "the README's test list has a dozen addresses; which strings are accepted is a statement about all of them, and the two recognisers differ on inputs not in the list", "anchors": ["README.md:36-64", "bench/regex_nocap.rs:parser", "bench/regex_cap.rs:parser", "src/neu/cond.rs:RegexCond", "src/neu/times.rs:Between", "src/ctor/sep.rs:SepOnce"]}
{"id": "C65", "title": "Skipping white space around a pattern", "statement": "p.skip_ws() succeeds exactly as p does and with p's value, and takes in addition the whole run of Unicode white space behind what p took and nothing more; p.skip_ascii_ws() does the same for the five ASCII blanks, on strings and on bytes; the leading variants take the run in front of p instead, and put the position back before the run when p fails behind it. Errors are p's own. Skipping twice is skipping once, and for matching it does not matter whether the left pattern skips behind it or the right pattern in front of it.", "quantifier": "every pattern p, every input, every position, both modes (matching, constructing), every handler", "why_tests_cant": "the documentation shows one string; the claim is about any pattern, any run of blanks (including none and the end of the input) and the failure positions", "anchors": ["src/ctor.rs:CtorOps::skip_ws", "src/ctor.rs:CtorOps::skip_ascii_ws", "src/ctor.rs:CtorOps::skip_ws_leading", "src/ctor.rs:CtorOps::skip_ascii_ws_leading", "src/ctor/affix.rs:Suffix", "src/ctor/affix.rs:Prefix", "src/neu/units.rs:WhiteSpace", "src/neu/units.rs:AsciiWhiteSpace"]}
{"id": "C66", "title": "Naming and inlining patterns", "statement": "A grammar may be refactored freely between shared handles and patterns written in place: using a pattern through a handle (recursive handle, Rc/RefCell/Option) or writing its content where the handle stood, at any place in the grammar, any number of times, with handles numbered differently and unused handles set to anything, changes no result: the same span, value, error and final position, and the same panics and endless runs.", "quantifier": "every pattern of the crate (all combinators, conditions, builder closures), every pair of rule sets, every input, position, policy and handler, matching and constructing", "why_tests_cant": "the claim is about all grammars and all ways to unfold a recursive one; unfolding can be repeated without end", "anchors": ["src/regex/rec.rs:rec_parser", "src/regex.rs:impl Regex for Rc/RefCell/Option", "src/ctor.rs:impl Ctor for Rc/RefCell/Option"]}
{"id": "C67", "title": "Sharing mutex-protected patterns between threads", "statement": "Patterns behind mutexes (rec_parser_sync, into_mutex) can be used from several threads: each call returns exactly what it returns with plain handles; and if the handles can be ordered so that the content of each uses only lower ones (and the skip policy only handles below all the pattern reaches), no schedule deadlocks: as long as a thread is not done some thread can go on, and after as many lock operations as the threads do by themselves all are done. Without such an order two threads that are each done when alone can block each other for ever.", "quantifier": "all grammars of mutex handles with an order, any number of threads, any sequence of match and construct calls per thread with any patterns, inputs, positions, policies and handlers, all schedules", "why_tests_cant": "a deadlock needs a particular schedule and input; tests see a few of them", "anchors": ["src/regex/rec.rs:rec_parser_sync", "src/regex.rs:impl_forward_regex Mutex", "src/ctor.rs:impl_forward_ctor Mutex", "src/ctor/into.rs:into_mutex", "src/regex/into.rs:into_mutex_regex"]}
{"id": "C68", "title": "The methods build what their names and parameters say", "statement": "The combinator methods take their parts in the documented order and keep the documented values: p.then(q) reads p, then q, and pairs the values; p.prefix(a) reads a first and keeps p's value; p.suffix(a) reads a last; p.enclose(open, close) reads open, p, close and keeps p's value; p.sep_once(s, q) reads p, s, q and pairs p's and q's values; or, longest, opt, if_then and if_else choose as documented; peek and not look ahead without moving; map, try_map, _0, _1, _eq act on the value; repeat, collect, sep with their defaults (at least one element, a last separator optional) and with at_least and with_skip give the values in order; array/slice/vector lists take the first alternative that matches, their ltm forms and with_longest(true) the one that reaches furthest, pair forms add the paired value; the last setting of a parameter counts and a capacity never matters.", "quantifier": "all patterns as parts, all inputs, positions, policies and handlers", "why_tests_cant": "a test fixes the parts and the input; exchanged or dropped parts only show for parts that differ on that input", "anchors": ["src/ctor.rs:CtorOps", "src/regex.rs:RegexOps", "src/ctor/sep.rs:Separate", "src/ctor/repeat.rs:Repeat", "src/ctor/collect.rs:Collect", "src/ctor/array.rs", "src/ctor/slice.rs", "src/ctor/vec.rs"]}
{"id": "C69", "title": "Asking for more elements than there can be is an error, not a panic", "statement": "A separated list or repetition for which more elements are asked for than are there (p.sep(s).at_least(n), p.repeat(n..)) fails with an error, however large n is, and the capacity set aside never changes a result.", "quantifier": "all patterns, inputs, positions, least numbers and capacities", "why_tests_cant": "tests use small numbers", "anchors": ["src/ctor/sep.rs:Separate::construct", "src/ctor/repeat.rs:Repeat::construct", "src/ctor/repeat.rs:Repeat::guess_capacity"]}
{"id": "C70", "title": "Units that remember keep their meaning inside other units", "statement": "A unit built from prefix, prefix_cnt, not, and, or is asked about the items in order, each item once, until it refuses one or the count is used up; many0, many1 and times take exactly the items it accepted. prefix_cnt(p, n, u) takes the first n items by p and the others by u, even when p and u remember something themselves; after a refusal within the prefix it accepts nothing; after a whole prefix it is u, without prefix (so it cannot be reused). The documented number literal, num.many1().or(dec.many1()) with num = prefix('0', oct.or(hex).or(bin)), takes decimal digits, or 0 and the digits of the radix its letter says, and nothing more.", "quantifier": "all units built this way, all histories of the unit, all inputs and positions, all ranges", "why_tests_cant": "the answer to an item depends on everything the unit was asked before; the documentation tests six texts", "anchors": ["src/neu/prefix.rs:Prefix", "src/neu/prefix.rs:prefix", "src/neu/prefix.rs:prefix_cnt", "src/neu/op_or.rs:Or::is_match", "src/neu/op_and.rs:And::is_match", "src/neu/once.rs:Many1", "src/neu/opt.rs:Many0", "src/neu/times.rs:Times"]}
{"id": "C71", "title": "What a context shows of its text", "statement": "With any policies around it: orig_sub(o, n) and get_by_span give exactly the n bytes at o when both ends are on character boundaries, and OutOfBound (nothing) otherwise; orig_at, orig, peek_at, peek give the text from a position and its items with their byte positions; len and is_empty are those of the text. set_offset, inc, dec move the position and nothing else. clone_at(o) is a context of the text from o with the same policies, and matching there is matching at o with all positions counted from o, for patterns that do not look at the absolute position. reset, reset_with, with_dat, with_offset, RegexCtx::with start where they say. BytesIndices yields the bytes in order with their positions, then nothing, and size_hint counts what is left.", "quantifier": "all texts and byte strings, all positions and lengths (inside characters and past the end too), all policies and nestings of policies, all patterns", "why_tests_cant": "positions and lengths are arbitrary, including ones inside characters and past the end; clone_at must agree with every pattern", "anchors": ["src/ctx.rs:Context", "src/ctx/regex.rs:RegexCtx", "src/ctx/policy.rs:PolicyCtx", "src/iter/byte.rs:BytesIndices", "src/span.rs:Span::orig"]}
{"id": "C72", "title": "Policies inside policies", "statement": "In a context with policy q around a context c that may have policies itself, try_mat(p) parses q in c, then p from where q ended; an error or panic of q is the result. So a policy inside matters only through what the policy around it does there: a policy of one piece, such as whitespace().many0(), hides all policies inside it, and a policy with parts, such as comment.repeat(0..), applies them before each of its parts, so that blanks and comments in any order are skipped. With no or one policy this is the matching of the other properties.", "quantifier": "all nestings of policies, all policies, patterns, rules, texts and positions", "why_tests_cant": "the policies are arbitrary patterns, applied at every step of every pattern; no test nests two policies", "anchors": ["src/ctx/policy.rs:PolicyCtx::try_mat", "src/ctx/policy.rs:PolicyCtx::clone_at", "src/ctx/regex.rs:RegexCtx::try_mat", "src/ctx/regex.rs:RegexCtx::skip_before"]}
{"id": "C73", "title": "Boxes, pointers and cells around a pattern", "statement": "A pattern in any stack of Rc, Arc, Cell, RefCell, Some, an unpoisoned Mutex, the adapters of into_box, into_rc, into_dyn, into_box_regex, into_ctor, as_ctor, ... matches what the pattern matches. Constructing builds what the pattern builds, unless one of the containers is made for patterns only (into_ctor, into_*_regex, as_ctor, Box<dyn Regex>): then the handler gets the one matched span. A None or a poisoned mutex inside fails with Error::Option or Error::Mutex and does not move. Adapter::func builds what its function builds and panics when it is matched. Inside other patterns a container is a handle with the content, or p.pat().", "quantifier": "all patterns, all stacks of containers, all texts, positions, policies, handlers", "why_tests_cant": "every stack of containers around every pattern; tests build a few", "anchors": ["src/regex.rs:Regex", "src/ctor.rs:Ctor", "src/regex/adapter.rs:Adapter", "src/regex/adapter.rs:RefAdapter", "src/regex/adapter.rs:BoxAdapter", "src/ctor/adapter.rs:Adapter", "src/ctor/adapter.rs:BoxAdapter", "src/ctor/adapter.rs:CtorOnlyFunAdapter", "src/regex/into.rs:RegexIntoHelper", "src/ctor/into.rs:CtorIntoHelper"]}
{"id": "C74", "title": "The benchmark programs compute what they are compared with", "statement": "The colour parser of the benchmarks accepts exactly #RRGGBB with capital hexadecimal digits, returns the three numbers written there and stops behind them; on every text it returns what the nom parser beside it returns, leaves the same text, fails exactly when that one fails, and does not panic. Looking for one character of a class with find gives the first such character, at the index that str::find gives, and None exactly when str::find gives None.", "quantifier": "all texts, all positions, all character classes", "why_tests_cant": "the benchmarks run on one text each; the comparison is only fair if both sides agree on every text", "anchors": ["bench/nom_cap.rs:color_neure", "bench/nom_cap.rs:color_nom", "bench/find.rs:neure_find", "bench/find.rs:str_find"]}
{"id": "C75", "title": "The circuit example of skip_ascii_whitespace reads its language", "statement": "On every text and from every position the documented parser of circuit instructions (123 -> x, x AND y -> d, NOT x -> h, ...), in the context that skips ASCII white space, returns exactly the instructions written there, in order, each operand and wire with its text and its span, with any white space (or none) in front of every word. It stops where no further instruction begins, fails exactly when not even one begins at the position, never panics and always returns.", "quantifier": "all texts, all positions", "why_tests_cant": "the documentation checks two of eight instructions of one text", "anchors": ["src/ctx/regex.rs:skip_ascii_whitespace"]}
{"id": "C76", "title": "Values do not steer the parser", "statement": "Two grammars that are the same combinator by combinator, with handlers, mappers, tags and dynamic builders that respect a correspondence between the values of the one and of the other, match the same texts with the same spans, stop at the same places with the same errors, panic or fail to return on the same inputs, and build corresponding values, leaving their handlers in corresponding states. So converting in the handler (ctor_with) is converting the result of ctor_span afterwards; a grammar without mappers, dynamic value builders and tags behaves the same with every handler that never fails; and the JSON example reads the same document whatever type its numbers are converted to. A mapper that refuses a value can steer, so the condition cannot be dropped.", "quantifier": "all grammars with recursion, all pairs of value types, correspondences, handlers with state, policies, texts and positions", "why_tests_cant": "ranges over all value types, handlers and mappers a user may supply", "anchors": ["src/ctor.rs:Handler", "src/ctx.rs:ctor_handler", "src/ctx.rs:ctor_with", "src/ctx.rs:ctor_span", "src/ctor/map.rs:Map::construct", "examples/json.rs:JsonParser::parse"]}
{"id": "C77", "title": "How deeply calls nest", "statement": "A grammar without recursive handles is matched and built with at most as many nested calls as the grammar is deep, on every text however long: repetitions and separated lists are loops and cost no stack per item. A recursive grammar whose every round through a handle consumes input nests at most linearly in the length of the text; the JSON example needs at most 16 nested calls per byte and 9 more. A result obtained with a large enough stack does not depend on its size. Nesting costs stack: n opening parentheses, or n opening brackets in the JSON example, need more than 3n and 12(n-1) nested calls, and nothing in the crate limits the nesting, so for every stack size there is a text that overflows it.", "quantifier": "all grammars with and without recursion, handlers, policies, texts, positions and stack sizes", "why_tests_cant": "ranges over all grammars, text lengths and stack sizes", "anchors": ["src/neu/opt.rs:Many0::try_parse", "src/ctor/sep.rs:Separate::construct", "src/ctor/repeat.rs:Repeat::construct", "src/regex/rec.rs:rec_parser_sync", "src/regex/rec.rs:rec_parser", "examples/json.rs:JsonParser::parse"]}
{"id": "C78", "title": "How many calls", "statement": "The number of calls of try_parse and construct made for one match is bounded by a number read off the pattern, whatever the text and whether the match succeeds or fails: loops whose body consumes make at most one round per byte and one more, counted repetitions at most their maximum and one more, an alternative at most the sum of its branches, and a skip policy is paid once per try_mat. Without recursion the number of calls is therefore at most A(n+1)^k on texts of n bytes, with k the number of nested loops; the same bound holds for building values with any handler. Nothing is remembered between alternatives: a recursive grammar two of whose alternatives begin with the same recursive part makes exactly 20*2^n - 11 calls on n nested parentheses.", "quantifier": "all patterns, skip policies, handlers, texts, positions and outcomes", "why_tests_cant": "ranges over all patterns and text lengths; a benchmark shows the time of one text", "anchors": ["src/ctx.rs:Match::try_mat", "src/ctx/policy.rs:PolicyCtx::try_mat", "src/ctor/or.rs:Or::try_parse", "src/ctor/sep.rs:Separate::try_parse", "src/ctor/repeat.rs:Repeat::try_parse", "src/ctor/collect.rs:Collect::construct", "src/neu/cond.rs:RegexCond", "src/regex/rec.rs:rec_parser"]}
{"id": "C79", "title": "When the context-free reading is right", "statement": "Read a.or(b) as 'an a or a b', repetitions as 'any number of' and recursive parsers as nonterminals: a context-free grammar. Everything a pattern matches is a text of that grammar (with the skipped part written before every part in a skipping context). Conversely, when one item of lookahead decides (two alternatives never begin with the same item, only the last may be empty, what is repeated or optional never begins with an item that may follow it, no left recursion), every text of the grammar followed by something that may follow is matched exactly, so a whole text is accepted exactly when the grammar derives it; then the order of alternatives does not matter, and two grammars for the same language accept the same texts. The condition can be checked with the textbook's tables of empty, first and following. Without it the converse fails: ('a' | 'ab') 'c' does not match abc, u* u never matches.", "quantifier": "all patterns that read as parsing expressions, all rules, all texts", "why_tests_cant": "ranges over all grammars and all texts; that an accepted grammar rejects no text of its language is not visible on examples", "anchors": ["src/ctor/or.rs:Or::try_parse", "src/ctor/repeat.rs:Repeat::try_parse", "src/ctor/sep.rs:Separate::try_parse", "src/ctor/opt.rs:OptionPat", "src/ctor/array.rs:PairArray", "src/regex/rec.rs:RecursiveParser"]}
{"id": "C80", "title": "White space between tokens does not matter", "statement": "In a context that skips the characters of a class (skip_before with a class repeated, skip_ascii_whitespace), take two texts that differ in their spacing only: the same other characters in the same order, and wherever one has blanks the other has some too, except in front, at the end, and between characters that may stand together or apart. If the primitive parts of the grammar are tokens (no blanks in them, and no two characters next to each other in them that may stand apart) or the end anchor, then what is matched of one text is matched of the other, what fails on one fails on the other, the rests again differ in their spacing only, and the values built from the texts of the tokens are equal. Where there is nothing to skip, a skipping context does exactly what a plain one does; so a text is accepted exactly if it is accepted by the plain context when written without blanks, and if one item of lookahead decides there, exactly if the context-free grammar derives the text without blanks.", "quantifier": "all patterns and rules that read as parsing expressions in a skipping context, all classes to skip, all pairs of texts", "why_tests_cant": "ranges over all grammars, all texts and all ways to space them", "anchors": ["src/ctx/policy.rs:PolicyCtx", "src/ctx.rs:Match::try_mat_policy", "src/ctor.rs:Ctor", "src/ctor/then.rs:Then", "src/ctor/or.rs:Or", "src/ctor/repeat.rs:Repeat"]}
{"id": "C81", "title": "Where one item of lookahead decides, the number of calls is linear", "statement": "When the next item (after blanks) decides everywhere in a grammar, i.e. alternatives begin differently, what is optional or repeated begins differently from what may follow it and is not empty, and no handle calls itself before something is consumed, then there are two numbers A and B such that matching or building at any position of any text, whether it succeeds or fails and whatever the handler and the closures do, makes at most A calls per item that follows and is no blank, and B more; in a plain context and in one that skips a class of blanks. Without that condition there may be no such numbers. The parser of the JSON example returns on every text after at most A calls per byte and B more.", "quantifier": "all grammars without lookahead conflict, all texts and positions, all handlers and closures, both kinds of context", "why_tests_cant": "a bound for all texts of all lengths over all such grammars", "anchors": ["src/ctx.rs:Match::try_mat", "src/ctx/policy.rs:PolicyCtx", "src/ctor/or.rs:Or", "src/ctor/repeat.rs:Repeat", "src/ctor/sep.rs:Separate", "src/regex/rec.rs:RecParser", "examples/json.rs:JsonParser"]}
{"id": "C82", "title": "A panic poisons what the thread held, and nothing else changes", "statement": "Patterns shared between threads behind mutexes, some calls panicking (in a user closure, say). A handle becomes poisoned only when a thread panics while it holds it. Using a poisoned handle is Err(Error::Mutex) and its content is not run: a call returns or panics exactly as it would if those handles were failing patterns. A thread that shares no handle with a thread that panicked is never told of a poisoned handle, so its calls return what they would return alone. If no call would panic by itself, no handle is ever poisoned. If the handles are ordered, panics cause no deadlock: as long as a thread is not done, some thread can go on. But: because the error counts as 'did not match', an alternative behind a poisoned handle is passed over in silence, and a call that used to succeed still succeeds with another result.", "quantifier": "all patterns, handles, policies, inputs and handlers, any number of threads, all schedules, all calls that panic anywhere, caught or not", "why_tests_cant": "schedules and points of panic cannot be enumerated; a test sees one interleaving", "anchors": ["src/regex.rs:Mutex", "src/ctor.rs:Mutex", "src/err.rs:Error::Mutex", "src/regex/rec.rs:rec_parser_sync"]}
{"id": "C83", "title": "The value of a text is the value of its derivation", "statement": "Read a grammar with values as a translation scheme: alternatives in no order, repetitions of any length, and a text has the value put together along its derivation (pairs, options, lists, mapped values, values of texts). Whatever is constructed is the value of a derivation of the text consumed. Where one item of lookahead decides (two alternatives never begin alike, what may be empty or repeated never begins like what may follow), the converse holds too: every text that has a value is constructed with this value, in front of anything that may follow; whole texts are constructed exactly with the values of their derivations; no text has two values; and only the values matter, not how the grammar is written. The condition can be checked with the textbook tables (empty, first, following). Without it a text may have two values of which only the first alternative's is constructed; and a list whose element mapper refuses a text accepts texts that have no value.", "quantifier": "all patterns of the fragment (leaves, sequence, delimiters, alternatives, options, repetitions, separated lists, conditions, mapped and dependent values, recursive handles), all grammars, all inputs, all handlers that are functions of the text", "why_tests_cant": "ranges over all grammars, all derivations of all depths and all inputs", "anchors": ["src/ctor.rs:Ctor", "src/ctor/or.rs:Or", "src/ctor/sep.rs:Separate", "src/ctor/repeat.rs:Repeat", "src/ctor/map.rs:Map"]}
{"id": "C84", "title": "Equal patterns may replace each other anywhere", "statement": "If two patterns return the same on every input and at every position (the same span or failure, the same position left behind, neither returning where the other does not), then one may be used in place of the other inside every combinator, in the conditions of units, in what closures build, and under a skipping context; if they also construct the same values with the same handler states, the same holds for constructing. Error values steer nothing: patterns that are alike but for the errors they report may replace each other with no effect but on the errors. In the rules of recursive patterns such a replacement never gives a new result; it gives the same results if the new rules return, or if the patterns are alike under the new rules too. Without that the new rules may never return: a rule is alike to its own handle. What the patterns do off the positions of the input (past its end, inside a character) does not matter either: patterns alike at every position of every input may replace each other in whatever starts on such a position, if closures, mappers and handlers keep to positions. In this sense a unit's opt is between::<0, 1>, many0 is repeat(..), and, but for the error reported, once is between::<1, 1> and many1 is repeat(1..), under any condition and for constructing too; as matchers opt, many0, many1, repeat, between and then of units are the combinators opt, repeat and then over once (unless the unit asks for more bytes than its items have). Off the input they differ.", "quantifier": "all patterns, all combinators, all rule environments, all inputs and positions, all policies, all handlers and handler states", "why_tests_cant": "quantifies over all pairs of patterns, all surrounding patterns and all inputs", "anchors": ["src/regex.rs:Regex", "src/ctor.rs:Ctor", "src/ctor/or.rs:Or", "src/regex/rec.rs:rec_parser", "src/neu/cond.rs:RegexCond", "src/neu/opt.rs:Opt", "src/neu/opt.rs:Many0", "src/neu/once.rs:Once", "src/neu/times.rs:Between", "src/neu/then.rs:NeureThen"]}
{"id": "C85", "title": "An error names its cause", "statement": "Every error that matching or constructing reports comes from one pattern inside the one that was tried (or inside the skip policy): one that makes up this very error itself and did fail with it, at a position the match had reached; everybody around it handed the error on unchanged. Literals, units, anchors, assertions, repetitions, separated lists, arrays of alternatives and empty handles each make up their own error; of two alternatives only the second one's error is reported; optional parts, tests and the elements of lists never report theirs. If user code respects boundaries (moves forward), the failure is at a boundary (ahead, inside the input), OutOfBound is reported only if user code says so, and Option only if a handle that was never set was used. When constructing, the handler, a mapper or a builder may have failed instead. Two different errors have different messages.", "quantifier": "all patterns, rule environments, policies, inputs, positions, handlers and user closures", "why_tests_cant": "quantifies over all patterns and all inputs on which they fail", "anchors": ["src/err.rs:Error", "src/regex.rs:Regex", "src/ctor.rs:Ctor", "src/ctor/or.rs:Or", "src/regex/literal.rs:Literal"]}
{"id": "C86", "title": "The benchmark's two JSON parsers agree with the example and with each other", "statement": "The parser of bench/json.rs that keeps slices (neure_json_zero) returns exactly what the parser of examples/json.rs returns, on every input: the same tree and the same end, or the same error. The parser that makes Strings (neure_json) returns a tree exactly if the other one returns that tree and all strings in it are valid UTF-8, that is if a prefix of the input is a document of the example's grammar with UTF-8 strings. Both return on every input, without panic. Numerals never fail for their encoding, only because f64 does not read them.", "quantifier": "all byte inputs, every behaviour of the conversion of numbers", "why_tests_cant": "quantifies over all byte strings; the benchmark runs both parsers on one sample and compares nothing", "anchors": ["bench/json.rs:JsonParser", "bench/json.rs:to_str", "bench/json.rs:to_digit", "examples/json.rs:JsonParser", "src/map.rs:FromStr"]}
{"id": "C87", "title": "Debug and release builds compute the same", "statement": "For a text that fits into memory (fewer than 2^63 bytes), an offset inside it and a pattern whose numbers fit into usize, matching, building values and every sequence of calls on a context (set_offset, inc, dec, orig_sub, orig_at, peek, try_mat, is_mat, try_assert, try_mat_policy, find) return the same in every build, with or without overflow checks and debug assertions: none of the usize additions, subtractions and multiplications on the way wraps around or panics unless a debug build panics at that place. Patterns that cannot panic (C04) panic in no build. A release build panics for no text, offset or pattern unless a closure of the user does.", "quantifier": "all builds, texts of fewer than 2^63 bytes, offsets inside them, patterns (recursive ones too) whose bounds fit, policies; for release builds all offsets", "why_tests_cant": "quantifies over all patterns, texts and compiler options; tests run in one build, and lengths near 2^63 cannot be allocated", "anchors": ["src/span.rs:add_assign", "src/neu.rs:calc_length", "src/ctx.rs:new_span_inc", "src/ctx/regex.rs:orig_sub", "src/ctx/regex.rs:inc", "src/neu/times.rs:Between", "src/neu/times.rs:Times", "src/ctor/repeat.rs:Repeat", "src/ctor/longest.rs:LongestTokenMatch", "src/ctor/extract.rs:Extract"]}
{"id": "C88", "title": "More text does not change what was decided before its end", "statement": "A result for which nobody asked where the text ends is the result for every longer text that begins with it: matching returns the same span or error, building returns the same value. Nobody asks means: every literal tried is there or differs from the text before its end, every run of items is ended by an item that is not accepted or by its upper bound, `end` is tried with text left, `consume(n)` has n bytes, `consume_all` is not used, and closures do not look beyond. For the primitives this is exact: the result is independent of what follows if and only if nobody asks. So a text that arrives in pieces can be parsed after each piece; results settled at different times agree; a search whose misses and hit are settled finds that hit. If the text has an item that no unit of the pattern accepts and no literal contains, such as a line end, everything before it is settled, matching and building alike. That a match ends before the end of the text is not enough.", "quantifier": "all patterns (recursive ones too, with conditions, policies and handlers), texts, offsets and continuations of the text", "why_tests_cant": "quantifies over all continuations of a text and all patterns", "anchors": ["src/ctx/regex.rs:RegexCtx", "src/regex/literal.rs:Literal", "src/regex/anchor.rs:AnchorEnd", "src/regex/consume.rs:Consume", "src/neu/once.rs:Once", "src/neu/opt.rs:Many0", "src/neu/once.rs:Many1", "src/neu/times.rs:Between", "src/ctx.rs:find", "examples/json.rs:parse"]}
{"id": "C89", "title": "A value is made of the handler's answers, in the order of the text", "statement": "What construct returns consists of answers the handler gave during this very call, in the order in which it gave them, none used twice; answers for what was tried and given up again are left out, and keeping a protocol of the calls changes no result. The spans the answers in a value stand for do not overlap, come in the order of the text and lie between the position before and the position after: so the spans of ctor_span are ordered, and the texts of ctor occur in the input one after the other. This holds for all combinators, also under a skip policy, as long as mappers only select (like _0, _1, _eq) and tags hold no answers; for the order, also without the *_ltm containers, which stop too early (counterexample).", "quantifier": "all patterns (recursive ones too), policies, handlers with state that may fail, texts and offsets", "why_tests_cant": "quantifies over every pattern, handler and text, and over all abandoned attempts", "anchors": ["src/ctor.rs:Handler", "src/ctor/extract.rs:Extract", "src/ctor/sep.rs:SepCollect", "src/ctor/longest.rs:LongestTokenMatch", "src/ctx.rs:ctor_span", "src/map.rs:Select0"]}
{"id": "C90", "title": "A grammar read with white space skipped builds the values of the text without white space", "statement": "Take a grammar with values in which one item of lookahead decides and whose tokens contain no blanks. In a context that ignores blanks, however many blanks are written between the tokens, construct returns the value v for the text (but for blanks at its end) exactly if the text without the blanks has a derivation with the value v in the context-free grammar. Where there is nothing to skip, a context with an ignore policy and one without build the same values. Between the parts of one token a blank does matter (counterexample: 1 2 is not 12).", "quantifier": "all grammars without conflicts, all classes of blanks, all texts and spacings of them, handlers that look at the text of a token only", "why_tests_cant": "quantifies over every grammar, text and way of spacing it", "anchors": ["src/ctx/policy.rs:PolicyCtx", "src/ctor.rs:Ctor", "src/ctor/sep.rs:Separate"]}
{"id": "C91", "title": "A search tries every position at most once", "statement": "find, find_all and match_seq, in a plain context and in one that skips, try the pattern from left to right, at a position at most once, and so at most once per byte of the searched text; together with the bound on the calls of one match this bounds the calls of the whole search. What they yield is non-empty, in the order of the text, inside the searched part and without overlaps, in every context. In a context that skips, a search that finds nothing can leave the context one behind the end of the text, where further matching panics (counterexample); without skipping it stops at the end. The bound is of the right order: searching a text of n times 'a' for any number of 'a' and a 'b' makes exactly 5n(n+3)/2 calls.", "quantifier": "all patterns without ltm choices and with well-behaved closures (recursive ones too), skip policies, texts, positions and outcomes", "why_tests_cant": "ranges over all patterns, policies and text lengths", "anchors": ["src/ctx.rs:MatchMulti::find_with", "src/ctx.rs:MatchMulti::find_all_with", "src/ctx.rs:find", "src/ctx/policy.rs:PolicyCtx"]}
{"id": "C92", "title": "Searching in a context that skips finds the leftmost match", "statement": "In a context that skips blanks (of one byte or of several), find returns Some exactly at the leftmost position from which the pattern, after skipping, matches non-emptily, with what this match covers, and leaves the context behind it; it returns None exactly when there is no such position, and the context is then at the end of the text, or one behind it exactly when the text ends in something skipped. Draining find_all yields exactly the successive leftmost matches. match_seq yields, in every context, exactly the maximal sequence of consecutive non-empty matches and leaves the context at the end. So the jump of a failing search over the skipped part misses no match.", "quantifier": "all patterns without ltm choices and with well-behaved closures (recursive ones too), all blank units, texts, positions and outcomes; match_seq: all patterns and policies", "why_tests_cant": "ranges over all patterns, texts and blanks; a missed match needs a particular layout of blanks and characters of several bytes", "anchors": ["src/ctx.rs:MatchMulti::find_with", "src/ctx.rs:MatchMulti::find_all_with", "src/ctx.rs:find", "src/ctx.rs:match_seq", "src/ctx/policy.rs:PolicyCtx"]}
{"id": "C93", "title": "Searching a text line by line", "statement": "For a pattern that cannot get past the line end, does not look behind its position and always returns, find_all on a text yields what it yields on the first line (with its line end), followed by what it yields on the rest of the text, moved by the length of the line. So the texts found in a file are the concatenation of the texts found in its lines, in order: reading the file line by line and searching every line loses nothing, adds nothing and changes nothing. A pattern that contains the line end or asks for the start of the text does not have this property.", "quantifier": "all patterns without closures whose units and literals do not accept the line end (recursive ones too), all line ends, all texts and all numbers of lines, characters of any number of bytes", "why_tests_cant": "ranges over all patterns and over all ways a text is split into lines", "anchors": ["src/ctx.rs:find_all", "src/ctx.rs:MatchMulti::find_all_with"]}
{"id": "C94", "title": "A file of records, one per line", "statement": "For a record pattern that cannot get past the line end and does not look behind its position, p.suffix(line end) collected over a file gives exactly the values that the lines give when each is read alone, in order, and uses the file up; no line changes the record of another. At the first line that gives no record alone, reading stops with the records before it and the position at the beginning of that line, whatever follows. Files put one behind the other give their records one after the other. A pattern that may take the line end does not have this property.", "quantifier": "all record patterns without position-dependent closures (recursive ones too), handlers that look at the matched text, handler states, files of any number of lines, minimum counts", "why_tests_cant": "ranges over all patterns, all lines and all numbers of lines", "anchors": ["src/ctor/collect.rs:Collect", "src/ctor/repeat.rs:Repeat", "src/ctor/affix.rs:Suffix", "src/regex/literal.rs"]}
{"id": "C95", "title": "A grammar sees only the differences it asks for", "statement": "Let every item have a representative that takes as many bytes (a letter its lower case, a digit '0', a character that is no bracket 'x'). If no unit, literal or closure of a grammar tells an item from its representative, the outcome of matching at any offset, with or without a skip pattern, is the same for a text and for the text of the representatives: same span, same error, same position. Two texts with the same representatives give the same outcome, the same trees of spans and the same spans found by find, find_all and match_seq; the texts find_all returns on the representatives are the representatives of those it returns on the text. With a literal that names one item of a class, or representatives of another length, this fails.", "quantifier": "all grammars (recursive ones too), skip policies, maps of items to representatives, texts and offsets", "why_tests_cant": "ranges over all grammars, all classes of items and all texts", "anchors": ["src/neu.rs:Neu", "src/regex/literal.rs", "src/ctx.rs:find_all", "src/ctx.rs:ctor_span"]}
{"id": "C96", "title": "The picture of the skip_before documentation is redrawn", "statement": "The documentation of RegexCtx::skip_before skips runs of 'X', collects the parts between them with their spans and prints every part at its place. For every text, not only the one shown: if the text has a character that is not 'X', the parts are built, what is printed is the text with a space for every 'X' up to the last character that is not 'X', the parts read one after the other are the text without its 'X's, and the context is left behind the last part. A text of 'X's only (or an empty one) is Error::Repeat with the context at the beginning.", "quantifier": "all texts", "why_tests_cant": "the documentation runs one picture; the claim ranges over all texts", "anchors": ["src/ctx/regex.rs:skip_before", "src/ctx/policy.rs:PolicyCtx", "src/ctor/repeat.rs:Repeat", "src/ctor/or.rs:Or"]}
{"id": "C97", "title": "The two PNG examples report the same about a file", "statement": "For every file that begins like a PNG file, examples/png.rs reports its chunks one after the other: what the case of the four letters of the type means, the length of the data and whether the checksum in the file is the CRC-32 of type and data; fewer than four bytes behind the last chunk are ignored, a chunk that is cut off is reported as far as it is there and ends the program with Error::Consume. The program never panics; every other file is 'Not a png file'. About a file that examples/png2.rs reads, png.rs reports the same chunks with all checksums correct, and about a type of four letters both print the same.", "quantifier": "all byte strings (contents of a file)", "why_tests_cant": "the examples are not tested; the claim ranges over all files", "anchors": ["examples/png.rs:main", "examples/png.rs:calc_crc", "examples/png2.rs:main", "examples/png2.rs:is_ancillary"]}
{"id": "C98", "title": "What a debug build computes without panic, every build computes", "statement": "For any text, position, policy and pattern, with no validity assumed: if try_mat, construct or any sequence of calls on a context (set_offset, inc, dec, orig_sub, orig_at, peek, try_mat, is_mat, try_assert, try_mat_policy, find) finishes without panic in a build with overflow checks and debug assertions, it finishes with the same answers and the same position in every build with fewer checks; and whatever a build with fewer checks returns, the debug build returns too or panics (it does not run on). inc(n) then dec(n) is back where it was in every build unless it panics.", "quantifier": "all texts, positions, patterns, policies, sequences of calls and pairs of builds of which one makes all the checks of the other", "why_tests_cant": "tests run in one build on a few inputs; the claim says for all inputs what a test in one build tells about another", "anchors": ["src/span.rs:add_assign", "src/ctx/regex.rs:inc", "src/ctx/regex.rs:dec", "src/ctx/regex.rs:orig_sub", "src/ctx.rs:find_with", "src/neu.rs:calc_length", "src/neu/times.rs:try_parse"]}
{"id": "C99", "title": "Turning logging on changes no result", "statement": "With feature log or tracing and messages switched on, construct returns the same value or error, leaves the handler and the position the same, panics and terminates in the same cases as the same build without, for every text, position, policy, handler and pattern whose closures leave the context where they found it or further on; in a build without overflow checks for every closure; and for every closure and build it either panics or does what the build without messages does. (A closure that moves the context back can make a debug build with logging panic: the length in the message underflows.)", "quantifier": "all builds, texts, positions, policies, handlers and patterns", "why_tests_cant": "the test suite is run with one set of features, on a few inputs; the messages compute a subtraction that is not there without them, at every construct of every pattern", "anchors": ["src/log.rs:debug_ctor_reval", "src/ctor/then.rs:construct", "src/ctor/affix.rs:construct", "src/ctor/opt.rs:construct", "src/ctor/sep.rs:construct"]}
