# Design

Formal model in Lean 4 (`lean/`) of `rust-adextopa-core` (`/repo`), a parser
combinator engine: matchers are run against a source text and produce a tree of
reference-counted tokens.  On top of the engine there is a grammar script language; its
grammar is itself built from the library's matchers.

## Trusted base

* The Lean 4.33.0 kernel.  No axiom is declared; `sorry`, `admit`, `native_decide`,
  `bv_decide`, `implemented_by`, `unsafe` are not used.  The axioms that the theorems of
  `MANIFEST.json` depend on (by `#print axioms`) are at most Lean's three:

* `propext`: `C26_names`, `C32_set_name`, `C32_pin_ranges`, `C32_set_value`, `C32_set_texts`, `C32_add_child`, `C32_equality`, `C43_loop_range`, `C43_inclusive_end`, `C47_get_children`, `C47_registered`, `C69_cycle`.
* `Quot.sound`, `propext`: `C01_shifted`, `C01_ascii_up_to_here`, `C01_too_long`, `C09_scopes_refine_stacks`, `C09_set_get`, `C09_push_set_pop`, `C20_spliced`, `C21_in_program`, `C25_continue`, `C25_continue_counts`, `C28_pin`, `C32_new`, `C32_set_attribute`, `C32_attribute_tests`, `C32_set_captured`, `C32_set_matched`, `C32_find_child`, `C32_find_child_fuzzy`, `C32_has_child`, `C38_no_maximum_only`, `C47_set_child`, `C47_children`, `C47_add_pattern`, `C47_missing_attributes`, `C48_attributes`, `C48_rename`, `C56_retain`, `C57_visit`, `C69_print`, `C69_text`.
* `Classical.choice`, `Quot.sound`, `propext`: all other theorems of `MANIFEST.json`.

* That the model (`lean/Verif/Model/*.lean`) says what the Rust code does.  Every
  definition cites the file and lines it transcribes.  `lean/Verif/Tests` replays
  the repository's own unit tests on the model (these are tests, not proofs).
* The standard library and the crates `regex`, `substring` as described below.

## What is modelled

| Model file | Rust |
|---|---|
| `Model/Str.lean` | UTF-8 strings with byte offsets, slicing (panics on bad slices), `Substring::substring` (character indices), `str::parse::<usize>`, `split`, `HashMap` |
| `Model/Core.lean` | `source_range.rs`, `token.rs` + derive macro `adextopa_macros/src/lib.rs`, `PinToken` of `pin.rs`, `scope.rs`, `scope_context.rs`, `matcher.rs` result types; heap of tokens/scopes |
| `Model/Context.lean` | `parser.rs`, `parser_context.rs` (window, `matches_*`, `debug_range`, lines/columns, error strings), `new_error_token*` |
| `Model/Matcher.lean` | one constructor per matcher of `src/matchers/*.rs`, names, `is_consuming`, `has_custom_name` |
| `Model/Exec.lean` | `_exec` of all matchers, `before_exec`, `exec`, `collect_errors`, `tokenize` |
| `Model/Borrow.lean` | `_exec` of all matchers, `exec`, `collect_errors`, `tokenize` again, with the borrow flags of the `RefCell`s |
| `Model/BorrowVisit.lean` | `token_visitor.rs` again, with borrow flags; the hooks are arbitrary |
| `Model/BorrowBuild.lean` | the functions of `Model/Script` again, with borrow flags |
| `Model/BorrowCallback.lean` | the crate's callbacks of `Map!` and `Catch!` with borrow flags, and the engine with callbacks that borrow |
| `Model/Log.lean` | `compile_script` with `FLAG_LOG_STDERR`, `log_errors_to_stdout`: what is printed |
| `Model/Build.lean` | the macros that build matchers (`Program!`, `Loop!`, `FatalIf!`, ...), `get_range` |
| `Model/Regex.lean` | a leftmost-first matcher for the few regular expressions that the script grammar is written with |
| `Model/Visitor.lean`, `Model/Children.lean` | `token_visitor.rs`, `find_child`, `find_child_fuzzy`, `has_child`, `get_matched_value` and friends |
| `Model/ScriptGrammar.lean` | `src/script/v1/matchers/*.rs`: the grammar of the script language, with its callbacks |
| `Model/Script.lean` | `src/script/v1/parser.rs`, `get_repeat_specifier_range`: from the tokens of a script to a matcher, `compile_script` |
| `Model/Print.lean` | `Debug` and `Display` of tokens |
| `Model/DebugPrint.lean` | `debug.rs` with the text that it prints |
| `Model/Memory.lean` | reference counts of tokens (`TokenRef` is an `Rc`) |
| `Model/MatcherPrint.lean` | references of matchers and scope contexts; how far `{:?}` of them goes |
| `Model/Edit.lean` | `get_children`, `set_child` of all matchers, `register_matcher*`, `get_registered_matcher` |

### Representation choices

* `Rc<RefCell<T>>` references are indices into a heap (`State`): tokens, scopes,
  scope contexts.  Nothing is freed (which tokens would be: `Model/Memory`, C68).
* A `ParserContext` is a plain value: each `exec` clones its context before
  changing it, so no two running matchers share one.
* Matchers are indices into a table `MatcherId → Node`, so grammars may be cyclic.
  The builder of scripts appends to a list of nodes.
* `exec` takes a bound on the *depth of matcher recursion*; running out is the
  result `diverge`, which means "no statement".  Loops inside a matcher have no
  bound other than the real one (`Loop` iteration range, window size).  That enough depth
  exists is C34; that depth does not matter is C06.
* A Rust panic is the explicit result `panic`; no partial operation is completed
  with a default value, except where a comment says the Rust code does so.
* Integer overflow: `Cfg.overflowChecks` selects the debug profile (panic) or the
  release profile (wrap).  Theorems hold for both unless they say otherwise.
* `HashMap`s are association lists; nothing observable depends on the order.
* The Unicode classes `\d` and `\w` are parameters (`Uni`); what is assumed is what they
  are on ASCII.  Compiling a regular expression and reading a file (`Env`) are parameters
  too, without assumptions.

### Not modelled

* User implementations of `Token`, `Matcher`; user callbacks of `Map`/`Catch` are
  arbitrary heap computations (`M R`), constrained by an explicit contract in each
  theorem; they cannot run matchers and cannot change matchers.
* `RefCell` borrow conflicts (`already borrowed` panics) are modelled apart (`Model/Borrow`, C56,
  `Model/BorrowVisit`, C57, `Model/BorrowBuild`, C58, `Model/BorrowCallback`, C61); the other
  models have no borrow flags.
* Text printed by debug output, except for the text of `Debug` itself (`Model/DebugPrint`, C67); of the
  rest only the slices taken for it (they can panic).
* The order in which the attributes of a token are printed.
* Changing a matcher (`add_pattern`, `set_name`, `set_child`, ...) while it is running.
* Memory exhaustion and stack overflow (a stack overflow shows as `diverge`).
* The regex engine in user grammars: `Regex.find` is an arbitrary function; theorems that
  need it assume the documented contract (`Regex.Ok`, `Peg.Cuts`): the match lies inside
  the haystack on character boundaries (shown for the modelled expressions, `C04_regex`).

## Proof infrastructure

* `Post p m s Q`: "running `m` from `s` ends in a state satisfying `Q`; a panic is
  allowed only if `p`; divergence is always allowed".  Rules for every primitive
  (`Proofs/Post`).  `Pres` for relations between the states before and after
  (`Proofs/Pres`, `Proofs/Frame`, `Proofs/TokInv`).  `RelM` for two runs (`Proofs/Rel`).
* Whole-interpreter theorems by induction on recursion depth: "if the recursive
  call satisfies the specification then every `_exec` does"; `Program` by
  induction on the patterns and on the iterations (`Proofs/Program`, with a big-step
  semantics of programs over arbitrary behaviour of their parts in `Spec/Program`).
* `Proofs/Fit*`: ranges and panics of the consuming fragment.
* `Proofs/Grove`, `Proofs/Forest`: tokens in the heap as forests.  `Proofs/Kin`: the same with
  parents.
* `Proofs/Peg`, `PegSim`, `PegExec`: lock-step simulation of the engine by the pure
  interpreter of `Spec/Peg`.
* `Proofs/Total*`: something comes out of every matcher of the script grammar at every place of
  every ASCII text, and the tokens of its tree are as the builder needs them (`Spec/Total`,
  `Sound`).  `Proofs/Calm*`: on such a tree the builder panics only for a `Cause`.
* What reading any text yields, without the errors that are gathered: relations between a text,
  what is left of it, and trees (`Proofs/Lax*`; the root in `LaxTop`).
* `Proofs/Construct`, `Proofs/Hooks`: the builder of scripts against the terms of
  `Spec/Script`.  `Proofs/ScriptNodes`: a property of all matchers of the script grammar
  follows from the property of its few callbacks.
* `Proofs/Mild`: the callbacks of the script grammar and of compiled scripts only change name,
  value and attributes of the token they are given, or make an error token.
  `Proofs/Compile`: all matchers made by compiling are of this kind, with imports, by
  induction on their depth; the hooks of the builder as an invariant of the visit.
  `Proofs/Confine`: what a run can do to scopes it cannot reach.
* `Spec/RegexText`, `Proofs/RegexText`: what the text of a regular expression means, for the
  syntax that the grammar of scripts uses.
* `Spec/Reports`, `Proofs/Reports`: which errors are reported for scripts that import others:
  what stops a build, and what is said then.
* `Spec/Import`, `Proofs/Transport`, `Proofs/Import`: what scripts mean with their imports, as
  plain terms; meanings depend only on the tokens of the tree; every hook against it.
* `Proofs/Rx`, `Proofs/RepeatText`: the regular expressions of repeat specifiers, and their
  texts cut into pieces.
* `Proofs/Reads`, `Passes`, `Rules`, `Builders`: reading a given text with the matchers that a
  builder makes; results as plain trees, the heap only as far as it shows them.
  `Proofs/Script*`: every matcher of the script grammar by these rules.
  `Proofs/Unique`, `Proofs/Complete`: token trees have one meaning, and what has a meaning is
  built.
* `Spec/Interp`, `Proofs/Interp*`: the interpreter with names and attributes, lock step with the
  engine, and equal results of grammars that correspond (`Proofs/InterpLike`).
  `Spec/Execute`: scripts as grammars, with definitions that change and with fixed ones.
  `Spec/Levels`: what it means that a grammar with names, or a script, is not left recursive.
  `Spec/Endless`: what is tried while something is tried, and how much there is to try.
  `Spec/Graft`: which scopes belong to which import statements.  `Spec/Linked`: the interpreter for
  scripts with imports, with scopes that have numbers and definitions that change.
  `Spec/EndlessLinked`: how much there is to try for it.
  `Spec/Toil`, `Spec/Thrift`: the number of tokens that interpreters make, and scripts for which it is bounded.
  `Spec/Atlas`, `Spec/Sound`: plans for the scopes of scripts with imports, and a program that looks for them.
  `Spec/Doomed`: left recursion through imports.
* `Spec/Work`: the number of tokens made, counted on the interpreter of `Spec/Peg`.
* Specifications (`Verif/Spec`) do not use the model's helper functions.

## Properties

| Id | How |
|---|---|
| C01 | whole-heap invariant through `exec`; for other than ASCII sources the same invariant, with characters counted |
| C02 C03 C04 | one induction through `exec` for the consuming fragment, with `p := True` (ranges) and `p := False` (no panic); that ranges lie between characters is part of the invariant, so that slices of any Unicode source are fine |
| C05 | frame invariant through `exec`, all matchers |
| C06 C07 | relational induction through `exec` |
| C08 | invariant on the scope stacks |
| C09 | refinement of the scope stack to a list of finite maps |
| C10 C11 | direct, against a specification on suffixes of the text |
| C12 C13 | specification as inductive relations on strings (`Body`; `Skims`: what is passed over); loop invariant with three outcomes; round trip |
| C14 C15 C16 C24 C25 | big-step specification of programs over arbitrary part behaviours; counterexamples by `decide` |
| C17 C18 C19 C20 C21 | decision logic against arbitrary body behaviour |
| C22 | induction through `exec` with an error-tracing semantics (`Spec/Halt`) |
| C23 | induction on token trees |
| C26 C27 | scope refinement plus decision logic; counterexample for clobbering |
| C28 C29 | decision logic; number printing/parsing round trip |
| C30 | specification of line ends as positions; loop invariant of the column scan |
| C31 | equality with a fold over the pre-order list |
| C32 | equational |
| C33 | postcondition of program execution for arbitrary parts |
| C34 | rank argument on the pure interpreter, carried over by C35 |
| C35 C37 | lock-step refinement to a pure interpreter producing rose trees, with the same depth of recursion |
| C36 | footprint invariant (no duplicates) through `exec` |
| C38 | the specifier's grammar is evaluated in the pure interpreter for every text; C35 carries this over to the engine; tokens to ranges by cases on the tree |
| C39 C44 | every step of the builder against an inductive description of what token trees mean (`Spec/Script`); with imports by induction on their depth (`Spec/Reports`) |
| C40 C41 C42 | decision logic of `Catch`, `Map` and the assertion macros against arbitrary body behaviour |
| C43 | equational |
| C45 | invariant of all worlds obtained by compiling, by induction on the depth of imports; C39 and C44 on the tree that the parse returns (C36) |
| C46 | the meaning of a text as a term with the meanings of its imports inside; induction on the depth of imports |
| C47 | `set_name`, `set_child`, `add_pattern` against relations between lists of matchers; registration by the scope refinement of C09 |
| C48 | simulation between two heaps under an injective renumbering, through every function of the engine |
| C49 | the language as inductive relations on plain strings (`Spec/Syntax`, `Spec/Meaning`); for every one of them, rules for what the matchers of the script grammar read, without heaps; then completeness of every hook of the builder |
| C50 | lock-step refinement, as for C35, to an interpreter whose store of names is a parameter; a relation between grammars under which results are the same; both the matchers of a compiled script and its terms are such grammars |
| C51 | the invariant of C36 with parents: trees that are about to be added belong to nobody yet; parents are older, so a climb is bounded by the number of a token |
| C52 | `Spec/Total` says what the builder reads of each kind of token; one rule for every matcher of the script grammar ("it ends, and what it returns is `Sound`"); the builder is then followed with a judgement in which panics need a cause; imports by induction on the files that are reached |
| C53 | rank argument on the interpreter of C50, with a store of names that is only known to be one of many; ranks of terms from levels of names (`Spec/Levels`); C50 carries this over to the engine |
| C54 | `Spec/Lax` is the language of C49 with one rule for each liberty; for every matcher of the script grammar, what any text yields when it is read, with the errors taken away (`Proofs/Lax*`); gathering of errors by C23; if the text is in the language of C49, then C49 and determinism, else the rules; the meaning by C46 |
| C55 | `Spec/Render`: trees, how they are written, what they say, which of them can be written; what is written derives in `Spec/Syntax` by recursion on the tree (`Proofs/Render`), and every derivation gives a tree that says the same, with an ASCII text (`Proofs/Canonical`) |
| C56 | `Model/Borrow` has the borrow flags; `Agrees b a s fl` says that `b` does what `a` does and leaves the flags alone, proved function by function and by induction on the depth of matchers; that tokens are proper trees (C36) shows that the children of a token, the error token of a `Discard` and the root of `collect_errors` are not borrowed when they are changed |
| C57 | `Watched` computations have flags; `visit_agrees` is proved by induction on the depth for an invariant of the state and a set of flags that is closed under sharing tokens; `C57_write` follows the way down to the token, on which all tokens are shared |
| C58 | step by step as C56 (`CAgrees`, `Does`); flags are `Unheld`: matchers that are not there yet are free, so a group may be borrowed mutably while newer matchers are made; hooks keep `Going` (C45) and are inserted in `visit_agrees` (C57); imports by induction on the fuel, with the cells of the outer scripts numbered below |
| C59 | simulation as in C48, now between two worlds (`Inside`): the builders of the script grammar, every step of the builder of matchers (`CMove`), the hooks and the visit (`HookSame`, `VisitSame`); the parse by C48, the depth of its tree by C36; chains of `set_name` by a pigeonhole argument, as the bound on their length differs; imports by induction on the fuel |
| C60 | both visits as calls of hooks over the pre-order list (C31), the one with printing against the one without, with the invariant of C45 (`Going`) that earlier tokens stay; a visit that succeeds has called the hook for `Error` on every error token, which needs the message; imports by induction on the fuel |
| C61 | the calculus of C56 once more, for callbacks with a contract (`SuccessAgrees` and others); each callback of the crate meets it (for those that change a token while they read below it, because the tree below does not lead back); that scripts are compiled to no other callbacks is an invariant of the compiler for any property of single matchers (`ScriptMade`, `Proofs/Made`) |
| C62 | the calls of the interpreter of C50 as a relation on tries (term, scope, position, store); a try has a result at depth n+1 exactly if all its calls have one at depth n; a try that recurs has none by descent, because only what names stand for matters (`Alike`); if none recurs, then the calls above a try all look different, and there are finitely many looks (pigeonhole) |
| C63 | things that are imported carry the number of their statement (`Thing`), and building a script shows that scopes of statements are disjoint ranges (`Grafted`, carried along C46 and C49); scopes get numbers by pairing, and `Locus` says where a number is on the heap, one to one; then `Alike` (C50) between the compiled matchers and `linkedGrammar`, whose store are lists of definitions |
| C64 | C62 for the interpreter of C63: what can be tried is listed from the scopes of the script (`linkedParts`, `linkedValues`, `linkedLabels`), the lists are closed under trying (`Closed`), also after any sequence of parses (`after_names`), and the interpreter only sees the last definition of each name in each scope |
| C65 | induction on the number of letters, with the rules of C10, C14, C15 and C27; the number of tokens is exact |
| C66 | every matcher of the grammar by walking through its builders; each expression against a reader of its text (`Spec/RegexText`), by induction on the text that is searched |
| C67 | the tree a run returns is a finite forest (C36, C51) in a heap where parents are older; the printing functions are total on it; the text is taken apart by its definition against `Spec/DebugPrint` |
| C68 | counts are zero exactly if nothing refers (`Spec/Memory`); what is freed is the well-founded part of the references, that is what no cycle leads to; parents and children of C51 are cycles |
| C69 | printing recurses along the references (`Spec/Acyclic`); scopes are ranked, imported below importing: entering goes down the ranks, and what a run binds in a context may work there; the scripts of C46 are ranked |
| C70 | the lock step of C35 with the number of tokens counted on both sides; the bound by induction on the depth of recursion, for any level that goes down with every step: the depth itself, or the level in the grammar; rounds of a repetition by `parts_pos` of C34 |
| C71 | the lock step of C50 and C63 with the number of tokens counted on both sides (`Lock` of Proofs/InterpSim has a count), carried through `Alike` to the interpreter of scripts; the bounds as in C70, with the set of definitions kept closed under what parsing adds to it (`Kept`) |
| C72 | a set of nonterminals and definitions for the interpreter of C63 (`ChartedPart`, `ChartedAll`) that parsing does not leave, and ranks per scope (`rankJoint`) that go down where nothing is consumed; then `eval_total` of C53 and `work_le` of C71 |

## Findings (the code disagrees with what a user would expect)

Text and positions:

* Text of tokens is wrong on non-ASCII sources: byte ranges, character substring (C01).  This also
  holds for scripts: behind a comment with an umlaut, `<Xyz>` refers to `yz>` and `</ab/>` is the
  expression `b/`; `</ä/>` is the expression `ä/`, and `<='ä'>` panics (evaluated in
  `Props/Compile`, not proved: C49 and C54 are about ASCII scripts).
* `Sequence` scans byte by byte and slices: it panics if a multi-byte character lies between the
  delimiters, or behind an opening delimiter without a closing one (C04, C12, C13); so does
  `debug_range`.
* The last column of a multi-line range is computed relative to the wrong line or clamped;
  lines and columns disagree inside CRLF (C30).

Engine:

* The minimum of a `Loop` range is not enforced when the body fails; a loop runs for
  hi-lo rounds, so that `{2,3}` can never complete; a loop that may match zero times fails if
  its body fails at once; a failing round keeps its tokens and its text (C16).
* An inclusive loop range `a..=b` is read as `a..` (C43).
* `Switch` turns `Continue` into `Break`; a nested `Program` drops `Continue` (C25).
* `Switch` passes over alternatives that match without consuming (C15, C35).
* A `Break` through a program that has collected nothing becomes a plain failure (C24).
* A failing `Store` has already overwritten the variable with the matcher itself (C26).
* `ProxyChildren` reads on at the end of the last child, not of the token (C20).
* A program of only discarded parts fails (C33, C35).
* `Discard` around errors returns a token named `Error` that is not flagged as an error and has no message (C19).
* Tokens and their parents hold each other with counted references: no parse tree with more than one
  token is ever freed, and neither are trees that were given up on the way (C68).
* A named matcher that enters, further inside, the scope context it runs in is put into that context: a cycle of
  references, after which the grammar can neither be printed nor freed (C69).
* `Program!(Error!(..))` alone fails; `Program!(Program!(Optional!(x), Error!("m")))` panics (C04).
* `Error` tokens may get a range that starts at `usize::MAX`; the range of `Panic` inside a
  program always starts at 0 (C42).
* A negative `Skip` can overflow (C04 excludes it).
* `Debug` around a `Pin` and `Register` of a `Debug` are not transparent (C07); in debug mode
  a raised error can become a panic while printing (C22).
* The end `+0` of a `Pin` window keeps the end of the old window; `++5` is accepted as an
  offset (C29).  The range setters of `Pin` tokens do not recompute the text (C01).
* `collect_errors` leaves stale parent pointers (C23).
* Nothing is remembered between alternatives; `S = a S b / a S c / a` takes exponential time on
  `aaa…` (C65).
* The constructors of `Store` refuse names with a dot, which no `Fetch` could read; `set_name`
  takes them (C26).
* A loop whose body matches without consuming runs for 2^64-1 rounds (C34), each of which may make a
  token (C70).

Scripts:

* Error tokens are dropped silently if all definitions can be built (C39).
* `{n}` means `0..n`; `{3 4}` is accepted as `0..3`; `?` and `{,m}` are no repeat specifiers (C38).
* Invalid regular expressions and empty `Sequence` delimiters panic instead of being
  reported; errors of pattern definitions are reported at the range 0..0.
* `A = B` makes a reference whose target is the whole expression text; the name of a capture is always `Name`.
* `import { _ as A, _ as B }` binds both names to one program, whose name is `B`; an imported
  definition that splices its children does not splice them any more (C46).
* A syntax error in a script without header loses its message.
* A header with only white space between `]` and `-->` is rejected, while one with nothing or with
  a comment there is accepted (C49, `Syntax.Header`).
* A named matcher takes its name in the current scope whenever it is tried.  In `A = <='a'>*` the
  name is that of the matcher inside the repetition, so after the first use of `A` the name
  stands for one `a`, and `(<A>)(<='b'>)(<A>)` matches only `aaba` of `aabaa` (C50,
  `C50_definitions_change`).  What is imported by one statement shares a scope, so that the use of
  one definition changes another; with one statement for each, it does not (`C63_sharing`).
* Parents and children hold each other by counted references (`C51_parent`), so a parse tree with
  two generations is never freed.
* Line breaks in a value are followed by extra blanks when a token is printed as a child (`Looks`).
* An invalid `version` is reported as `Nothing to parse. No scopes found.`; a script without header
  or with an unreadable one is reported as a bug of the library.
* A text that starts with a broken pattern scope is turned into an `Error` token, for which the
  builder reports `Expected provided token to be a `Script` token` (C52).
* Some malformed scripts are accepted (C54, `Spec/Lax`, examples in `Props/Lax`): `<[<='a'>>` and
  `<{<='a'>>` without closing bracket; `{2 3}`, which means `{2}`; `?!<..>`; attributes whose
  name starts with an underscore; `<//>`, which is the regular expression `//`; version `+1`.
  If anything behind a header is malformed, then all patterns are dropped silently.  A header
  without version is dropped silently with all its definitions.
* Left recursion is accepted, and recurses without end on every text (C53, `C53_left_recursion`),
  or, behind parts that may match nothing, on some texts only (C62); so do cyclic imports.  A script
  can come to an end on a text and not come to an end when the same text is parsed again
  (`C64_second`).
