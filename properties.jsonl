{"id": "C01", "title": "Token text agrees with token ranges", "statement": "For every token in existence after any parse of an ASCII source, the captured value is exactly the source text at the captured range and the matched value is exactly the source text at the matched range (as long as user callbacks only change a token through its setters for range, name, attribute and flags). For sources with any characters, the texts are what one gets by counting characters up to the byte offsets of the ranges: a text that is preceded by characters with n bytes too many starts n characters too late and is as many characters long as the range has bytes; so it is right for ranges up to whose end the source is ASCII, and wrong behind other characters.", "quantifier": "every source text, every grammar graph built from the library's matchers (including recursive ones), every parse outcome, every token ever created", "why_tests_cant": "A test fixes one grammar and one text; the claim ranges over all grammars, all texts and every token, including tokens of abandoned alternatives kept in variables.", "anchors": ["src/source_range.rs:SourceRange::to_string", "src/token.rs:StandardToken", "adextopa_macros/src/lib.rs:set_captured_range", "src/matchers/program.rs:finalize_program_token", "src/matchers/pin.rs:PinToken"]}
{"id": "C02", "title": "Matched ranges start where the matcher was applied, stay inside the window and lie between characters", "statement": "For a grammar without Pin and Error matchers (and callbacks that keep the same discipline), any token a matcher returns has a matched range that begins exactly at the position where the matcher was applied, is non-empty, ends no later than the end of the reading window, and contains the captured range; any Skip amount is non-negative and stays in the window. Every range begins and ends on a character boundary of the source, and so does the place reached by a Skip, whatever characters the source has.", "quantifier": "every source, every window, every such grammar, every nesting and recursion depth", "why_tests_cant": "Quantifies over all grammars and inputs; an off-by-one only shows for particular combinations of nested matchers.", "anchors": ["src/matcher.rs:Matcher::exec", "src/matchers/program.rs:ProgramPattern::_exec", "src/matchers/sequence.rs:SequencePattern::_exec", "src/matchers/discard.rs:skip_token"]}
{"id": "C03", "title": "Children are ordered, disjoint and inside their parent", "statement": "In the token tree produced by such a grammar the children of every token appear in source order, their matched ranges do not overlap, and every child's matched range lies inside its parent's matched range.", "quantifier": "every source and every such grammar, every token of every tree", "why_tests_cant": "Structural invariant over unbounded trees.", "anchors": ["src/matchers/program.rs:add_token_to_children", "src/matchers/program.rs:handle_extract_token", "src/matchers/program.rs:contain_source_range"]}
{"id": "C04", "title": "Parsing never panics on well-formed grammars", "statement": "For a grammar of consuming matchers (no Pin, no Error, literal arguments, non-empty sequence delimiters) running any matcher on any source terminates with a result or keeps recursing, but never panics: no slice out of bounds or inside a character, no integer overflow, no failed assertion, no unreachable code. The source may have any characters, except that what a Sequence passes over behind its opening delimiter has to be ASCII, and that debug mode needs an ASCII source. Without this a quoted Sequence panics.", "quantifier": "every source shorter than 2^63 bytes, every such grammar, every starting offset between two characters, both overflow profiles", "why_tests_cant": "Absence of panics over all inputs cannot be sampled.", "anchors": ["src/matchers/program.rs:add_token_to_children", "src/matchers/sequence.rs:SequencePattern::_exec", "src/parser_context.rs:matches_str", "src/parser_context.rs:debug_range"]}
{"id": "C05", "title": "Parsing never modifies tokens that already existed", "statement": "Running a matcher leaves every token that existed before it started exactly as it was (name, ranges, value, children, parent, attributes, flags), and a returned token, together with every token reachable from it, is new.", "quantifier": "every grammar, every prior heap of tokens and variables, every outcome (success, failure, error)", "why_tests_cant": "Aliasing bugs appear only for particular sharing patterns of reference-counted tokens.", "anchors": ["src/token.rs:TokenRef", "src/matchers/program.rs:add_token_to_children", "src/matchers/expand_range.rs:ExpandRange::_exec", "src/matchers/store.rs:StorePattern::_exec"]}
{"id": "C06", "title": "A result does not depend on how much recursion depth was available", "statement": "If a parse finishes within some recursion depth then with any larger depth it finishes with the same result and the same effects; so the outcome of a terminating parse is unique.", "quantifier": "every grammar, source, starting state and pair of depths", "why_tests_cant": "Needs induction over the interpreter; a test runs with a single stack size.", "anchors": ["src/matcher.rs:Matcher::exec", "src/matchers/ref.rs:RefPattern::_exec"]}
{"id": "C07", "title": "Debug is transparent", "statement": "Wrapping matchers in Debug (at any level and any set of places, but not around a Pin and not as an entry of Register) never changes the result of a parse: either the debug run produces the same result and the same tokens and variables, or it panics while printing; on ASCII sources with an in-bounds window it never panics for that reason. (Falsified parts, proved as counterexamples: Debug around a Pin changes the result, because a program no longer sees that the matcher does not consume; Register of a Debug registers nothing under the name of the matcher.)", "quantifier": "every grammar, source, starting state, every choice of debug mode", "why_tests_cant": "The claim compares two runs over all grammars.", "anchors": ["src/matchers/debug.rs:DebugPattern::_exec", "src/parser_context.rs:debug_range"]}
{"id": "C08", "title": "Variable scopes are balanced", "statement": "Whatever the outcome of a match, the stack of variable scopes has the same depth and the same scopes as before (except that the very first binding may create the base scope).", "quantifier": "every grammar (also failing and erroring ones), every initial stack", "why_tests_cant": "Early returns and failures on all paths must restore the stack.", "anchors": ["src/scope_context.rs:ScopeContext::push", "src/scope_context.rs:ScopeContext::pop", "src/matchers/set_scope.rs:SetScopePattern::_exec"]}
{"id": "C09", "title": "Scope lookup is lexical", "statement": "Looking up a variable gives the value bound most recently in the innermost scope that has it; binding affects only that name, only in the innermost scope; popping a scope restores exactly the view from before the push.", "quantifier": "every sequence of push, pop, set, get", "why_tests_cant": "Histories are unbounded.", "anchors": ["src/scope_context.rs:ScopeContext::get", "src/scope_context.rs:ScopeContext::set", "src/scope.rs:Scope"]}
{"id": "C10", "title": "Equals matches exactly its literal at the current position", "statement": "A literal Equals succeeds if and only if its non-empty literal is a prefix of the unread text inside the window, and then returns a fresh token covering exactly those bytes; otherwise it fails without effect.", "quantifier": "every source, window and literal", "why_tests_cant": "All strings and windows, including windows ending inside the literal and multi-byte text.", "anchors": ["src/matchers/equals.rs:EqualsPattern::_exec", "src/parser_context.rs:matches_str"]}
{"id": "C11", "title": "Matches is anchored at the current position", "statement": "A Matches succeeds only when the regular expression's leftmost match in the remaining window starts at the current position; it covers exactly that match; an empty match consumes nothing and produces no token; a match later in the text is a failure.", "quantifier": "every source, window and every regular expression engine honouring the `find` contract", "why_tests_cant": "All patterns and texts.", "anchors": ["src/matchers/matches.rs:MatchesPattern::_exec", "src/parser_context.rs:matches_regexp"]}
{"id": "C12", "title": "Sequence stops at the first unescaped terminator", "statement": "A Sequence succeeds if and only if the text at the current position starts with the opening delimiter, a later unescaped terminator exists in the window, and only ASCII characters are passed over on the way to it; the matched range then ends right after the first unescaped terminator, the captured range is what lies between the delimiters, and the value is that text with each escape marker dropped and the character after it kept. It panics exactly if a character that is not ASCII is passed over behind the opening delimiter before a terminator is reached; otherwise it fails. Delimiters, escape marker and the text around may have any characters.", "quantifier": "every source, window, delimiters and escape marker", "why_tests_cant": "The scan is an unbounded loop with interplay of escape, terminator and window end.", "anchors": ["src/matchers/sequence.rs:SequencePattern::_exec", "src/parser_context.rs:matches_str_at_offset"]}
{"id": "C13", "title": "Quoted strings round-trip through Sequence", "statement": "Quoting any ASCII text (escaping the terminator and the escape character) and parsing it with the corresponding Sequence gives back a token whose value is the original text and whose matched range is exactly the quoted text, whatever follows. A quoted text that is not ASCII panics.", "quantifier": "every body, every quote and escape character that differ (ASCII or not), every following text", "why_tests_cant": "Round-trip over all strings.", "anchors": ["src/matchers/sequence.rs:SequencePattern::_exec"]}
{"id": "C14", "title": "Program is sequential composition", "statement": "A Program succeeds exactly when its parts succeed one after the other, each applied at the offset where the previous one ended; it fails as soon as one of them fails and runs nothing after it; its token's children are exactly the parts' tokens in order and its matched range spans them.", "quantifier": "every list of parts, every behaviour of the parts", "why_tests_cant": "Unbounded number of parts and behaviours.", "anchors": ["src/matchers/program.rs:ProgramPattern::_exec", "src/matchers/program.rs:handle_token"]}
{"id": "C15", "title": "Switch is ordered choice", "statement": "A Switch returns the result of its first alternative that succeeds with a token or a positive skip; alternatives after it are not run; alternatives that fail leave the read position unchanged; an error in an alternative aborts the choice.", "quantifier": "every list of alternatives, every behaviour of them", "why_tests_cant": "Unbounded alternatives and behaviours.", "anchors": ["src/matchers/program.rs:ProgramPattern::_exec"]}
{"id": "C16", "title": "Loop runs its body at most as often as its range allows", "statement": "A Loop with range a..b runs its body at most b-a times; a Loop whose body runs out of matches returns what it has collected so far. (Falsified parts, proved as counterexamples: the minimum a is not enforced when the body fails; a loop that may match zero times fails if its body fails at once; an iteration that fails half-way is not undone, its tokens stay and its text stays consumed.)", "quantifier": "every range, body and source", "why_tests_cant": "Counts are unbounded.", "anchors": ["src/matchers/program.rs:ProgramPattern::_exec", "src/matchers/program.rs:finalize_program_token"]}
{"id": "C17", "title": "Optional never fails softly", "statement": "Optional never returns a plain failure: a plain failure of its body becomes a success that consumes nothing; every other result, in particular an error, is passed through unchanged; the effects are the body's.", "quantifier": "every body, state and context", "why_tests_cant": "All bodies and states.", "anchors": ["src/matchers/optional.rs:OptionalPattern::_exec"]}
{"id": "C18", "title": "Not is a non-consuming negative look-ahead", "statement": "Not fails exactly when its body succeeds with a token, proxied children or non-zero skip, succeeds consuming nothing when the body fails or succeeds consuming nothing, passes errors through, and never yields a token.", "quantifier": "every body, state and context", "why_tests_cant": "All bodies and states.", "anchors": ["src/matchers/not.rs:NotPattern::_exec"]}
{"id": "C19", "title": "Discard consumes the same text and hides the token", "statement": "Discard succeeds, fails or errors exactly as its body does, moves the read position by exactly the length of the body's match, and yields no token, except that a body containing Error tokens yields a token holding all of them.", "quantifier": "every body and every token tree it may return", "why_tests_cant": "Token trees are unbounded.", "anchors": ["src/matchers/discard.rs:DiscardPattern::_exec", "src/matchers/discard.rs:collect_errors", "src/matchers/discard.rs:skip_token"]}
{"id": "C20", "title": "ProxyChildren splices children in place", "statement": "ProxyChildren does what its body does and marks the token. Inside a Program the children of the marked token that are not pins are added, in order and re-parented, instead of the token; the token itself and everything else are unchanged; the program reads on at the end of the last such child, or of the token if there is none. (Falsified part, proved as a counterexample: the read position is not the end of the marked token.)", "quantifier": "every body and token tree", "why_tests_cant": "Unbounded child lists and nesting.", "anchors": ["src/matchers/proxy_children.rs:ProxyChildrenPattern::_exec", "src/matchers/program.rs:handle_extract_token"]}
{"id": "C21", "title": "ExpandRange makes captured equal matched", "statement": "ExpandRange returns its body's token wrapped so that the enclosing token's captured range (and text) becomes the matched range, without changing anything else; other results pass through.", "quantifier": "every body and token", "why_tests_cant": "All bodies.", "anchors": ["src/matchers/expand_range.rs:ExpandRange::_exec"]}
{"id": "C22", "title": "Errors are never swallowed", "statement": "If any matcher that is run during a parse raises a MatcherFailure::Error, and the grammar has no Catch/Map handler around it, the whole parse returns that very error; no further matcher runs after it.", "quantifier": "every grammar without error handlers, every nesting", "why_tests_cant": "Must hold on every path of every combinator.", "anchors": ["src/matcher.rs:MatcherFailure::Error", "src/matchers/program.rs:ProgramPattern::_exec", "src/matchers/optional.rs", "src/matchers/not.rs", "src/matchers/discard.rs"]}
{"id": "C23", "title": "tokenize gathers all Error tokens at the root", "statement": "After tokenize, every Error token that was anywhere in the tree is a direct child of the root, exactly once, in document (post-order) order after the root's own children, and the rest of the tree is unchanged; nothing is lost.", "quantifier": "every finite token tree", "why_tests_cant": "Unbounded trees.", "anchors": ["src/parser_context.rs:collect_errors", "src/parser_context.rs:tokenize"]}
{"id": "C24", "title": "Break leaves exactly the addressed loop", "statement": "A Break runs no further pattern of the enclosing programs up to and including the innermost loop with the given name (any loop if unnamed), which then completes with what has been collected; programs in between contribute their partial tokens; a Break with a foreign name goes through. (Falsified part, proved as a counterexample: a program in between that has collected nothing turns the Break into a plain failure.)", "quantifier": "every nesting of programs, loops and switches", "why_tests_cant": "Nesting depth is unbounded.", "anchors": ["src/matchers/break.rs:BreakPattern::_exec", "src/matchers/program.rs:ProgramPattern::_exec"]}
{"id": "C25", "title": "Continue starts the next iteration of the addressed loop", "statement": "A Continue that reaches its loop directly keeps what has been collected and starts the next iteration. (Falsified parts, proved as counterexamples: inside a Switch a Continue turns into a Break, inside a nested Program it is dropped.)", "quantifier": "every loop body", "why_tests_cant": "Behaviours of bodies are unbounded.", "anchors": ["src/matchers/program.rs:ProgramPattern::_exec"]}
{"id": "C26", "title": "Store then Fetch", "statement": "When Store's body returns a token, fetching the variable's sub-properties right afterwards gives that token's value, matched value and offsets; storing text and fetching it gives the text. Store never changes its body's result. The constructors of Store refuse exactly the names with a dot, and no Fetch reads a variable with a dot in its name. (Falsified part, proved as a counterexample: Store overwrites the variable already before its body runs, so a failing Store loses the previous value.)", "quantifier": "every variable name, body, state", "why_tests_cant": "All names, tokens, and scope stacks.", "anchors": ["src/matchers/store.rs:StorePattern::_exec", "src/matchers/fetch.rs:fetch_value", "src/matcher.rs:before_exec"]}
{"id": "C27", "title": "References resolve to the innermost registered matcher", "statement": "Register makes each listed matcher available under its name; a Ref behaves exactly like the matcher the innermost binding of that name refers to, at the same position; a reference to a name that is unbound or not a matcher is an error, never a plain failure.", "quantifier": "every list of registered matchers, every scope stack", "why_tests_cant": "Unbounded registries and stacks.", "anchors": ["src/matchers/register.rs:RegisterPattern::_exec", "src/matchers/ref.rs:RefPattern::_exec", "src/matcher.rs:before_exec"]}
{"id": "C28", "title": "Pin does not move the read position", "statement": "Whatever a Pin matches, the following parts of the enclosing Program are applied at the same offset as if the Pin were not there, and the Program's own ranges do not change because of it.", "quantifier": "every Pin offset, body and enclosing program", "why_tests_cant": "All offsets and bodies.", "anchors": ["src/matchers/pin.rs:PinPattern::_exec", "src/matchers/program.rs:handle_token", "src/matchers/program.rs:handle_extract_token"]}
{"id": "C29", "title": "Pin offsets mean what they say", "statement": "A Pin offset `n`, `+n`, `-n`, `a..b` (each bound absolute or relative, empty meaning unchanged) selects exactly the corresponding window; printing a range and using it as offset selects that range; an offset before the start of the source panics under overflow checks.", "quantifier": "every number and every current window", "why_tests_cant": "All numbers.", "anchors": ["src/matchers/pin.rs:parse_offset", "src/matchers/pin.rs:is_empty_offset", "src/matchers/fetch.rs:fetch_value"]}
{"id": "C30", "title": "Line and column numbers are right", "statement": "For a range inside the source on character boundaries the reported first line is one more than the number of line ends before the range start (CRLF counting once), the first column is one more than the distance from the last line end, the last line and column likewise for the range end when the range does not span a line end; computing them never underflows.", "quantifier": "every ASCII or non-ASCII source with LF, CR, CRLF in any mixture, every range", "why_tests_cant": "All texts and ranges.", "anchors": ["src/parser_context.rs:get_lines", "src/parser_context.rs:get_columns", "src/parser_context.rs:get_error_as_string"]}
{"id": "C31", "title": "Visiting a tree is a pre-order traversal", "statement": "The visitor calls, for each token in document pre-order, the hook registered under the token's name if there is one, otherwise the `*` hook if there is one, otherwise nothing; it stops at the first hook error and returns it.", "quantifier": "every finite tree, every set of hooks", "why_tests_cant": "Unbounded trees.", "anchors": ["src/token_visitor.rs:TokenVisitor::_visit", "src/token_visitor.rs:find_hook"]}
{"id": "C32", "title": "Token accessor laws", "statement": "Setting an attribute, name, range, value or flags changes exactly that, reading back gives what was written; a token's value is the `__value` attribute if set, else the explicit value, else the captured text; enabling and disabling flags are inverse on disjoint flags.", "quantifier": "every token and argument", "why_tests_cant": "All tokens and sequences of calls.", "anchors": ["adextopa_macros/src/lib.rs", "src/token.rs:Token"]}
{"id": "C33", "title": "Every returned Program or Loop token is non-empty", "statement": "A Program or Loop that returns its own token returns it with at least one child; it never returns a token without children.", "quantifier": "every list of patterns and every behaviour of them", "why_tests_cant": "All behaviours.", "anchors": ["src/matchers/program.rs:finalize_program_token"]}
{"id": "C34", "title": "Non-left-recursive grammars terminate", "statement": "If matchers can be ranked so that every matcher reachable without consuming input has a smaller rank, and loops are bounded or consume in every iteration, then parsing any source finishes.", "quantifier": "every source, every such grammar", "why_tests_cant": "Termination over all inputs.", "anchors": ["src/matcher.rs:Matcher::exec", "src/matchers/program.rs:ProgramPattern::_exec", "src/matchers/ref.rs:RefPattern::_exec"]}
{"id": "C35", "title": "The engine implements parsing-expression-grammar semantics", "statement": "For grammars of Equals, Matches, Sequence, Program, Switch, Optional, Not, Discard, ProxyChildren, Loop without Break and references between them, the engine's success or failure, consumed length and token tree (names, ranges, nesting) equal those of a small pure PEG interpreter that has no heap, no contexts and no mutable offsets.", "quantifier": "every such grammar, source and offset; texts may have any characters, only what a Sequence of the grammar passes over has to be ASCII (C12)", "why_tests_cant": "Refinement over all grammars and inputs.", "anchors": ["src/matchers/program.rs", "src/matchers/optional.rs", "src/matchers/not.rs", "src/matchers/discard.rs"]}
{"id": "C36", "title": "The result is a proper tree", "statement": "The tokens reachable from a returned token form a finite tree: no token occurs twice and no token is its own descendant; so walking it terminates.", "quantifier": "every grammar with tree-preserving callbacks, every source", "why_tests_cant": "Sharing and cycles through reference-counted children depend on the history of the run.", "anchors": ["src/matchers/program.rs:add_token_to_children", "src/matchers/expand_range.rs", "src/matchers/discard.rs"]}
{"id": "C37", "title": "Parsing is repeatable", "statement": "Parsing the same text twice with the same grammar gives structurally identical trees, whatever tokens and unrelated variables were left behind by the first parse.", "quantifier": "every PEG-style grammar and source, any pair of prior heaps", "why_tests_cant": "Hidden state could leak between parses in unbounded ways.", "anchors": ["src/parser_context.rs:tokenize", "src/parser_context.rs:ParserContext"]}
{"id": "C38", "title": "Repeat specifiers mean what they say", "statement": "In a grammar script the repeat specifiers `*`, `+`, `{n,}` and `{n,m}` with n <= m, with blanks anywhere inside the braces, are read completely and turned into the iteration ranges 0.., 1.., n.. and n..m; no other text is turned into a range, apart from `{n}` and `{n m}`. (Falsified parts, proved as such: `{n}` means 0..n, `{n m}` is accepted and means 0..n, `?` and `{,m}` are no repeat specifiers.)", "quantifier": "every ASCII text, every position, every number", "why_tests_cant": "All numbers.", "anchors": ["src/script/v1/matchers/repeat_specifier.rs:get_repeat_specifier_range"]}
{"id": "C39", "title": "Script build errors are reported", "statement": "Building a matcher from a parsed script yields a matcher exactly if every definition that it visits can be built; otherwise it returns the list of errors, which are the reports of the error tokens before the first definition that could not be built, followed by the error of that definition, and it always terminates. For a script that imports files: when compiling reports errors, they are those of its parse, or the reports of the error tokens before the first token that stops the build, followed by the errors of the file that this token imports, if these are the reason, and otherwise by one error about this token (a pattern that cannot be built, an import in a text that is not a file, `_` without a name, or a name that the imported file does not define); the list is never empty. (Falsified part, proved as a counterexample: if all definitions can be built, error tokens in the tree are dropped silently.)", "quantifier": "every token tree, every script, every set of files", "why_tests_cant": "Unbounded trees.", "anchors": ["src/script/v1/parser.rs:build_matcher_from_tokens", "src/script/v1/parser.rs:compile_script"]}
{"id": "C40", "title": "Catch replaces exactly the failures", "statement": "Catch(body, handler) returns a success of the body unchanged and without running the handler; for a plain failure or an error it returns whatever the handler returns, run once in the heap that the body left.", "quantifier": "every body, handler, source and heap", "why_tests_cant": "the handler and the body are arbitrary code; tests fix both", "anchors": ["src/matchers/catch.rs:38-54"]}
{"id": "C41", "title": "Map calls exactly one callback", "statement": "Map(body, ok, err) gives a token, or a token marked for splicing, to the success callback and a failure to the failure callback, in the heap that the body left; skips and control results pass without a callback.", "quantifier": "every body, callbacks, source and heap", "why_tests_cant": "the callbacks and the body are arbitrary code; tests fix both", "anchors": ["src/matchers/map.rs:48-94"]}
{"id": "C42", "title": "Assertions report exactly what was asserted", "statement": "FatalIf/AssertIf report the text their body matched and are empty successes where it fails; FatalIfNot reports the rest of the window and AssertIfNot an empty error token at the read position where the body fails, and both consume nothing where it matches; errors pass. Error yields a flagged empty token at the read position with its message, Panic an error whose range starts at the token on top of the stack.", "quantifier": "every body, message, source, window and heap", "why_tests_cant": "tests look at one message of one body; the range and the message depend on the body's token, the window and the whole source", "anchors": ["src/matchers/fatal_if.rs", "src/matchers/fatal_if_not.rs", "src/matchers/assert_if.rs", "src/matchers/assert_if_not.rs", "src/matchers/panic.rs", "src/matchers/error.rs"]}
{"id": "C43", "title": "Loop ranges keep their bounds", "statement": "The pair of numbers that get_range makes from a Rust range contains exactly the counts the range contains, for half-open and unbounded ranges. An inclusive end is read as no end (falsified part, with a counterexample run).", "quantifier": "every pair of bounds and every count", "why_tests_cant": "tests only use half-open ranges with small bounds", "anchors": ["src/matchers/program.rs:12-27"]}
{"id": "C44", "title": "A compiled script is the grammar its tokens describe", "statement": "The matcher built from the token tree of a script that imports nothing runs, in the script's own scope, the described patterns of all pattern scopes in order; every name is bound to its last definition and to nothing else; names, attributes, modifiers, repeats and discards wrap the described matcher in the documented order. Matchers that existed before are unchanged.", "quantifier": "every token tree, every heap and prior set of matchers", "why_tests_cant": "Token trees are unbounded, and a wrong wrapper order only shows for particular combinations of modifiers, names, attributes and repeats.", "anchors": ["src/script/v1/parser.rs:construct_matcher_from_inner_definition", "src/script/v1/parser.rs:construct_matcher_from_pattern_definition", "src/script/v1/parser.rs:construct_matcher_from_pattern", "src/script/v1/parser.rs:build_matcher_from_tokens"]}
{"id": "C45", "title": "Scripts compile from their text", "statement": "Compiling a script, with all files it imports, leaves existing matchers and tokens alone. A rejected script comes with at least one error, and for a script that is not read from a file the errors are the parse failure or those of C39; an accepted one was parsed to a proper tree of new tokens and its matcher and bindings are what these describe (C44). Compiling does not come to an end only if parsing the text does not. Parsing with compiled scripts keeps the guarantees of C01, C05, C08 and C36 for every script.", "quantifier": "every source text, file system, prior matchers and heap, and every text parsed with the result", "why_tests_cant": "a handful of script files cannot show that no script disturbs older matchers, is dropped without an error, or yields shared or stale tokens", "anchors": ["src/script/v1/parser.rs:compile_script", "src/script/v1/parser.rs:compile_script_from_str", "src/script/v1/parser.rs:build_matcher_from_tokens", "src/script/v1/parser.rs:compile_script_from_file_internal"]}
{"id": "C46", "title": "Imports bring the definitions of other files", "statement": "When a script file is turned into a matcher, the text of the file and of all files it imports, at any depth, has a meaning, and the matcher and its scope are that meaning: every name stands for its last definition or import; an imported name stands for the definition that the imported file has for the identifier, run in the scope of that file and with its token renamed; `_` stands for the whole imported file under its new name; nothing else is bound. Scripts that are not read from a file bring only definitions of their own.", "quantifier": "every file system, script text, import graph, prior matchers and heap", "why_tests_cant": "import graphs, name clashes and renamings combine without bound, and a definition bound in the wrong scope only shows if both files use the same name", "anchors": ["src/script/v1/parser.rs:build_matcher_from_tokens", "src/script/v1/parser.rs:compile_script_from_file_internal", "src/script/v1/parser.rs:compile_script"]}
{"id": "C47", "title": "Matchers are put together as asked", "statement": "set_name gives the name to the matcher inside all Optional, Not, Discard, ExpandRange, Catch, Map, SetScope and Debug wrappers, whichever of them is asked, and changes nothing else; set_child replaces exactly the given part and panics exactly if there is none; add_pattern appends to programs and Register and panics otherwise; get_registered_matcher finds the last matcher registered under a name. A definition with attributes gives its token the attributes that it lacks and no others.", "quantifier": "every set of matchers, every nesting of wrappers, every list of registrations, every token and attribute map", "why_tests_cant": "wrappers nest without bound, and naming through a wrapper that swallows the name only shows for that combination", "anchors": ["src/matchers/map.rs:set_name", "src/matchers/optional.rs:set_child", "src/matchers/program.rs:set_child", "src/parser_context.rs:register_matchers", "src/parser_context.rs:get_registered_matcher", "src/script/v1/parser.rs:construct_matcher_from_pattern_definition"]}
{"id": "C48", "title": "A parse neither sees nor changes what else is in the heap", "statement": "Running a matcher in a heap gives, up to the numbering of tokens and scopes, the same result as running it in any part of that heap which holds everything its context reaches, including panics and raised errors, and leaves the rest of the heap as it is. In particular a parse with a new context gives the same tree or the same failure whatever has been parsed, compiled or registered elsewhere before. The callbacks of the assertion macros, of the script grammar and of compiled scripts all keep this.", "quantifier": "every set of matchers, source, heap, renumbering and depth of recursion", "why_tests_cant": "a dependence on earlier parses shows only for a particular history of the heap, and there are unboundedly many", "anchors": ["src/matcher.rs:exec", "src/parser_context.rs:tokenize", "src/scope_context.rs", "src/parser_context.rs:new"]}
{"id": "C49", "title": "Every text of the script language compiles to what it means", "statement": "The grammar script language is given by a small set of rules on plain strings that say what each text describes: patterns, definitions and imports. Every ASCII text of that language is parsed and compiled, in every world of matchers and scopes, at every sufficient depth of recursion, and the matcher and scope that come out are what the rules say; also with imports of further files. The language is not ambiguous, and more depth of recursion never changes a result.", "quantifier": "every ASCII script text, every set of files, every set of matchers, tokens and scopes that exists before, every sufficient depth of recursion", "why_tests_cant": "the language is infinite: patterns nest, comments, white space, attributes, repetitions and imports combine without bound, and the parser is a grammar of more than 800 matchers in which one changed word or optional part only shows for the texts that use it", "anchors": ["src/script/v1/parser.rs:compile_script", "src/script/v1/parser.rs:build_matcher_from_tokens", "src/script/v1/matchers/script.rs", "src/script/v1/matchers/pattern.rs", "src/script/v1/matchers/pattern_definition.rs", "src/script/v1/matchers/adextopa_scope.rs", "src/script/v1/matchers/import_statement.rs", "src/script/v1/matchers/attribute.rs", "src/script/v1/matchers/repeat_range.rs"]}
{"id": "C50", "title": "A script does with a text what a small interpreter says about its terms", "statement": "There is a small interpreter, without a heap of tokens, of grammars with names, scopes, attributes and renaming. Every set of matchers that the script compiler can produce runs in lock step with it: both run out of depth, or both return, the token seen by a user (names, ranges, texts, attributes, children) or the error is the same, names stand for the same afterwards, and the engine does not panic. On top of this, from text to tokens: the text of a script is compiled, and parsing any text with it has the result that the interpreter says about the terms that the script means. Definitions change while they are used: a matcher with a name takes that name in the current scope when it is tried. If no used name is the name of an inner part, nothing changes, and every parse has the result of the plain meaning, also with imports, whatever has been parsed before.", "quantifier": "every script text, every set of imported files, every text to be parsed, every heap of tokens and scopes, every number of earlier parses, every depth of recursion; texts may have any characters, only what a Sequence of the grammar passes over has to be ASCII (C12)", "why_tests_cant": "scripts, texts and histories of parses are unbounded, and the meaning of a name depends on which matchers have been tried before, also in branches that failed; a test shows one script on one text after one history", "anchors": ["src/matcher.rs:before_exec", "src/parser_context.rs:tokenize", "src/matchers/program.rs", "src/matchers/ref.rs", "src/matchers/set_scope.rs", "src/matchers/map.rs", "src/script/v1/parser.rs:compile_script"]}
{"id": "C51", "title": "Tokens know their parents, and every parse tree can be printed", "statement": "In every parse tree the parent reference of a token is the token that lists it as a child, except for error tokens, and the root has no parent; going up from a token n generations below the root ends at the root after n steps. Parents are always older than their children, so going up ends from every token, also from errors that were moved. Printing a token with Debug or Display ends without a panic for every token of a parse tree, and a tree without errors is printed by generations, with the indentation that fits the distance from the root. What is said about parents being right holds for all matchers but ExpandRange, the rest for all matchers, for callbacks under a contract that the macros and the script language keep to, and thus for all compiled scripts.", "quantifier": "every grammar (without ExpandRange for the right parents), every text, every heap of tokens that exists before, every token of the tree", "why_tests_cant": "parents are set when a program takes a token over, in five places and also in branches that fail later; a wrong one only shows for the nesting that uses it, and printing loops for ever on a cycle of parents", "anchors": ["src/token.rs:get_tab_depth_for_debug", "src/token.rs:get_parent_path_for_debug", "src/token.rs:fmt", "src/matchers/program.rs:add_token_to_children", "src/matchers/expand_range.rs", "src/matchers/discard.rs"]}
{"id": "C52", "title": "Compiling a script always ends, and panics only for reasons that can be named", "statement": "For every ASCII text the grammar of scripts comes to an end without a panic: it fails, gives an error, or a tree in which everything is in place that the builder takes for granted when it indexes children and unwraps attributes. Compiling the text then ends with a matcher, at least one error, or a panic; a panic happens only because a Sequence starts or ends with an empty string, because a regular expression is not accepted, or because an imported file is not found or has such a fault itself. This holds in every world of matchers and scopes and for all files whose imports are no cycle.", "quantifier": "every ASCII text, every file system, every world of matchers and scopes, every sufficient depth of recursion", "why_tests_cant": "the builder has dozens of unwraps and indexings that rely on what the 868 matchers of the script grammar put into the tree; only some malformed text would reach a missing child, and malformed texts are not enumerable", "anchors": ["src/script/v1/parser.rs:compile_script", "src/script/v1/parser.rs:build_matcher_from_tokens", "src/script/v1/parser.rs:construct_matcher_from_pattern", "src/script/v1/mod.rs"]}
{"id": "C53", "title": "Scripts without left recursion end with every text, and left recursion never ends", "statement": "If the names of a script have levels such that, where nothing has been consumed yet, a definition only uses names of lower levels, then every parse with the compiled script returns, at a depth of recursion that is linear in the length of the text: (length + 1) times a constant that is computed from the script. This holds whatever was parsed before and although definitions change while they are used, and for scripts with imports whose definitions do not change. A program finds the levels. The other way round, if the first pattern begins with a name and definitions begin with such names again, then the compiled script overflows every depth of recursion with every text.", "quantifier": "every script text, every set of imported files, every text to be parsed, every number of earlier parses; texts may have any characters, only what a Sequence of the grammar passes over has to be ASCII (C12)", "why_tests_cant": "termination for all texts is not testable; names are rebound while matchers are tried, so that a script without left recursion may become left recursive in a later parse", "anchors": ["src/matchers/ref.rs:exec", "src/matcher.rs:before_exec", "src/matchers/program.rs:exec", "src/parser_context.rs:tokenize"]}
{"id": "C54", "title": "Whatever is compiled is in the text: no script outside of a stated language is accepted", "statement": "If an ASCII text is compiled to a matcher, then it is a text of a language that is given by explicit rules on strings, and the matcher and its scope are what the text means there. The language is the one of C49 with a list of liberties, each of which is a rule of its own: a group may lack its closing bracket, a second number without comma is ignored, contradicting modifiers and attribute names with an underscore are ignored errors, an empty regular expression stands for its slashes, a version may have a plus, everything behind a header is dropped if it is no list of patterns, and a header without version is dropped with what it says. Nothing else is ever accepted: imported files are such texts too, and behind comments a text starts with one of < ? ! (.", "quantifier": "every ASCII text, every file system, every world of matchers and scopes, every depth of recursion", "why_tests_cant": "that nothing wrong is accepted is a statement about all malformed texts; tests only try a few, and the script grammar of 868 matchers turns many errors into tokens that the builder does not look at", "anchors": ["src/script/v1/mod.rs", "src/script/v1/parser.rs:compile_script", "src/script/v1/parser.rs:build_matcher_from_tokens", "src/script/v1/parser.rs:construct_matcher_from_pattern", "src/parser_context.rs:collect_errors"]}
{"id": "C55", "title": "Scripts can be written from a tree and read back, and every script can be brought into this form", "statement": "Grammar scripts are given as trees, with a function that writes such a tree down (texts are quoted and escaped, numbers are decimal, one line for each statement and each pattern) and one that says what it describes. If the parts of a tree can be written at all (names are identifiers, no text to match is empty, bounds are in order and below 2^64, regular expressions are accepted), then the text is a script that says exactly what the tree says, and it compiles to that. Two trees with the same text say the same. Conversely, whatever any script of the language says, a tree says too, so that a script can be replaced by its canonical form without changing what it compiles to.", "quantifier": "every tree of patterns, definitions, groups, attributes, imports and comments of every depth and size; every text of the language of scripts", "why_tests_cant": "round trips fail at rare combinations (a quote in an attribute, a repetition in front of a brace, an alias with white space); tests try a handful of scripts", "anchors": ["src/script/v1/mod.rs", "src/script/v1/parser.rs:compile_script", "src/script/v1/parser.rs:construct_matcher_from_pattern", "src/matchers/sequence.rs"]}
{"id": "C56", "title": "No RefCell is borrowed while it is borrowed mutably, or mutably while it is borrowed", "statement": "The engine is modelled a second time with the borrow flag of every RefCell (tokens, matchers, contexts, scope contexts, scopes) and the time for which each borrow() and borrow_mut() lives. Running a matcher, and tokenize with its gathering of errors, never meets a cell that is borrowed in a way that does not allow it: with the flags the run is exactly the run without them, and afterwards every flag is as before. The condition is that the callbacks of Map and Catch keep the token graph a tree; a callback that makes a token its own child does make extracting its children panic. The same holds for parsing scripts and for parsing with matchers made from scripts.", "quantifier": "every table of matchers, whatever references what, every text, context, scope and heap, every depth; every state of the flags in which no scope is borrowed, and matchers, contexts and the tokens that are there before are only shared", "why_tests_cant": "a double borrow shows only for special shapes of grammar, text and error (a recursive reference, a discarded error inside a loop); the code relies on copies and early drops that a refactoring loses easily", "anchors": ["src/matchers/program.rs:_exec", "src/matchers/program.rs:handle_extract_token", "src/matchers/discard.rs:collect_errors", "src/parser_context.rs:collect_errors", "src/parser_context.rs:tokenize", "src/scope_context.rs", "src/matchers/fetch.rs"]}
{"id": "C57", "title": "What hooks of a visitor may borrow: visiting only shares tokens, and a hook that writes to its own token panics", "statement": "visit is modelled a second time with the borrow flags of the tokens and of the hooks, and the time for which each borrow lives. If the hooks only do what is allowed while the tokens on the way to the current token are shared and the hook itself is borrowed mutably, and leave the visited tokens as they are, then the visit with flags is exactly the visit without them, and every flag is as before when it ends. A hook that borrows the token it is called for mutably, or any token above it, panics: the visit stops there with a borrow conflict of that token, whatever happened before.", "quantifier": "every heap of tokens (trees or not), every list of hooks with or without a default, every state and invariant of the hooks, every state of the flags in which the visited tokens are at most shared", "why_tests_cant": "the tests only visit with hooks that read; whether a hook may change a token depends on where in the tree the hook is called and on which borrows are alive there", "anchors": ["src/token_visitor.rs:visit", "src/token_visitor.rs:_visit", "src/token_visitor.rs:find_hook"]}
{"id": "C58", "title": "Compiling a script, with its imports, never borrows a RefCell twice", "statement": "build_matcher_from_tokens, the hooks for definitions, imports, headers, errors and patterns, the functions that make matchers from patterns, and compile_script are modelled a second time with the borrow flags of tokens, matchers, contexts, scopes, hooks and lists of errors, and the time each borrow lives. Compiling a script with these flags is exactly compiling it without them, and every flag is as before afterwards: no 'already borrowed' panic is possible, although the group that is being filled is borrowed mutably while its patterns are made, the tokens above are shared while files are imported, and an import runs a whole parse and visit inside a hook. The same holds for building from any tree of tokens, and for making one pattern from any tokens.", "quantifier": "every script text, every file system (cyclic imports included), every world of matchers and scopes, every depth, every state of the flags in which scopes are not borrowed and tokens and matchers are only shared", "why_tests_cant": "whether two borrows overlap depends on the nesting of groups, imports and errors; one more named temporary in the builder makes only some scripts panic", "anchors": ["src/script/v1/parser.rs:build_matcher_from_tokens", "src/script/v1/parser.rs:construct_matcher_from_pattern", "src/script/v1/parser.rs:construct_matcher_from_inner_definition", "src/script/v1/parser.rs:compile_script", "src/parser_context.rs:register_matchers"]}
{"id": "C59", "title": "What a script is compiled to does not depend on what was compiled or parsed before", "statement": "Compiling a script, with all its imports, in any world of matchers, tokens and scopes has the outcome of compiling it first thing in an empty world: it is rejected with the same errors, panics with the same message or goes on without end in the one if it does in the other; and if it is compiled, then its matcher, all the matchers it is made of, and the variables of its scope are those of the first compilation, at the places after what was there. Parsing a text with the compiled matcher and a new context then gives the same tree, failure, panic or endless run. So the verdict on a script and the trees it makes are functions of the text, the files and the parsed text alone.", "quantifier": "every script text and file system (cyclic imports included), every world, even one that holds user-made matchers with arbitrary callbacks, every depth, every text parsed", "why_tests_cant": "a dependence on earlier work (a stale variable, a shared scope, an index counted from the start of a list) shows only for particular pairs of a script and a history", "anchors": ["src/script/v1/parser.rs:compile_script", "src/script/v1/parser.rs:build_matcher_from_tokens", "src/scope_context.rs:ScopeContext", "src/parser_context.rs:tokenize"]}
{"id": "C60", "title": "Printing errors while a script is compiled changes nothing and prints what it should", "statement": "Whether or not FLAG_LOG_STDERR is given, a script with all its imports is compiled to the same matcher, rejected with the same errors, or panics or goes on without end alike; in particular the unwrap in log_errors_to_stdout never panics. Without the flag nothing is printed, by no import either. With the flag, when a script is rejected the messages of all returned errors are printed last and in order, at least one, and for a script that is not read from a file nothing else; when a script is accepted, what is printed is what its imports print, in the order of the text, followed by the messages of exactly the error tokens right below the root of its tree.", "quantifier": "every script text and file system (cyclic imports included), both values of the flag, every depth, every world made by compiling scripts", "why_tests_cant": "no test compiles with the flag; a missing message attribute or a flag not handed to an import shows only for particular scripts", "anchors": ["src/script/v1/parser.rs:log_errors_to_stdout", "src/script/v1/parser.rs:compile_script", "src/script/v1/parser.rs:build_matcher_from_tokens"]}
{"id": "C61", "title": "What callbacks may borrow; the crate's own callbacks borrow nothing twice", "statement": "If every callback of Map! and Catch!, called with the root of a tree of new tokens none of which is borrowed and with no scope borrowed, borrows no RefCell in conflict with another borrow and releases what it borrowed, then a whole run of any matcher with such callbacks never panics with 'already borrowed' and does exactly what it does without borrow flags. All callbacks of the crate keep to this: those of FatalIf!, FatalIfNot!, AssertIf!, AssertIfNot!, of the matchers of the script grammar (including those that hold a token mutably while they read the attributes below it), and those that compiled scripts attach to pattern definitions and imports. Matchers made by compiling scripts, and the grammar of scripts, have no other callbacks; so neither parsing a script nor parsing with a compiled script ever borrows a RefCell twice.", "quantifier": "every matcher table, text, scope, depth and fuel; every callback that keeps to the rule; every world made by compiling scripts", "why_tests_cant": "a conflict shows only on the path of a callback that makes an error token or copies an attribute, for particular trees", "anchors": ["src/matchers/map.rs:_exec", "src/matchers/catch.rs:_exec", "src/matchers/error.rs:new_error_token_with_range", "src/matchers/assert_if.rs", "src/matchers/fatal_if.rs", "src/script/v1/matchers/adextopa_scope.rs", "src/script/v1/matchers/pattern_definition.rs", "src/script/v1/matchers/regex_matcher.rs", "src/script/v1/parser.rs:construct_matcher_from_pattern_definition", "src/script/v1/parser.rs:build_matcher_from_tokens"]}
{"id": "C62", "title": "Exactly which parses do not come to an end, and how deep one has to look to know", "statement": "While a script reads a text, trying a term leads to trying other terms, at positions of the text, while names stand for certain terms. A parse has no result at any depth of recursion exactly if something is tried, and while it is tried the same is tried again at the same position while names stand for the same. If no result is found at the depth that is the number of terms (and four) times the number of positions times the number of ways in which the names of the script can stand for its terms, then there is none; so whether a parse comes to an end can be computed. This holds for the engine with the compiled text of a script without imports, for each parse whatever was parsed before and whatever this did to the definitions; and for scripts with imports whose definitions do not change, with the number of terms times the number of positions as the depth. Whether a parse ends can depend on the text: left recursion behind an optional part that matches nothing shows only for texts where it does match nothing.", "quantifier": "every script, text, position, definitions, depth and fuel, every world made by compiling scripts, every sequence of earlier parses; texts may have any characters, only what a Sequence of the grammar passes over has to be ASCII (C12)", "why_tests_cant": "a test cannot tell a parse that does not end from one that needs more depth", "anchors": ["src/matchers/program.rs:_exec", "src/matchers/program.rs:exec", "src/matchers/ref.rs:_exec", "src/parser_context.rs:tokenize", "src/script/v1/parser.rs:compile_script"]}
{"id": "C63", "title": "What scripts with imports do with texts that are parsed one after the other, whatever their definitions", "statement": "The scopes of a compiled script are a tree: one scope for the script, and one for each import statement of it, of the scripts that it imports, and so on; different statements have different scopes, also if they import the same file, and all that one statement imports shares one scope. A term with a name, or an imported script, that is tried takes its name in the scope where it is tried. With these two rules a small interpreter, which works on the terms of the scripts and on lists of definitions for the scopes, says for each sequence of texts parsed with the script whether each parse comes to an end, which token it returns, or which error, or that it fails, and which definitions are left for the next parse. The engine on the compiled text does exactly that, at every depth of recursion, for every script with imports, without conditions on how its definitions are called. For scripts without imports this is the interpreter of C50.", "quantifier": "every script text and files it imports, every world made by compiling scripts, every sequence of texts, every depth of recursion; texts may have any characters, only what a Sequence of the grammar passes over has to be ASCII (C12)", "why_tests_cant": "the effect of a change of a definition shows only in later parts of the text or in later parses, and depends on which names are imported by which statement", "anchors": ["src/script/v1/parser.rs:build_matcher_from_tokens", "src/script/v1/parser.rs:compile_script", "src/scope_context.rs:ScopeContext::set", "src/matchers/set_scope.rs:exec", "src/matchers/ref.rs:exec", "src/matchers/program.rs:exec", "src/parser_context.rs:tokenize"]}
{"id": "C64", "title": "Exactly which parses with scripts that import others do not come to an end, whatever their definitions", "statement": "Texts are parsed one after the other with a script that imports others, and what names stand for in the scopes of the script and of its imports changes on the way. Whatever has been parsed before, a parse does not come to an end exactly if something is tried and, while it is tried, the same is tried again, in the same scope, at the same position of the text, when all names in all scopes stand for the same. If this does not happen, then the parse returns at a depth of recursion that is known beforehand: the number of things that can be tried in the script and its imports, times the number of positions, times the number of ways in which names in the scopes can stand for things; it depends on the script and on the length of the text, and not on what has been parsed before. So a parse that has not returned at this depth never returns. There is a script whose first parse of a text comes to an end and whose second parse of the same text does not.", "quantifier": "every script text and files it imports, every world made by compiling scripts, every sequence of texts parsed before, every text, every depth of recursion; texts may have any characters, only what a Sequence of the grammar passes over has to be ASCII (C12)", "why_tests_cant": "that a parse never returns cannot be observed, and the bound is over all scripts, all texts and all that has been parsed before", "anchors": ["src/parser_context.rs:tokenize", "src/matchers/ref.rs:exec", "src/matchers/set_scope.rs:exec", "src/matchers/program.rs:exec", "src/script/v1/parser.rs:build_matcher_from_tokens", "src/scope_context.rs:ScopeContext::set"]}
{"id": "C65", "title": "Alternatives forget what was tried before them: parses can take exponential time", "statement": "There is a grammar of seven matchers (S = a S b / a S c / a, with S called by name) with which the parse of a text of n characters, for every n, makes exactly 9 * 2^n - 6 tokens although its result is a single token of one character: a Switch keeps nothing of what its failed alternatives found out.", "quantifier": "every n, every starting heap in which S is registered, every context outside of debug mode whose unread text are n letters a; whole parses with every sufficient recursion depth", "why_tests_cant": "A growth rate is a statement about all lengths; the running time of some texts shows neither that it is exponential nor that it is caused by the engine and not by a particular grammar.", "anchors": ["src/matchers/program.rs:ProgramPattern::_exec", "src/matchers/ref.rs:RefPattern::_exec", "src/parser_context.rs:tokenize"]}
{"id": "C66", "title": "The regular expressions of the script grammar find what their texts say", "statement": "Every regular expression in the grammar of grammar scripts has the name and the text that it has in the source, and for every text to be searched it finds what its own text says: read as an expression of characters, classes (negated or not, with ranges, \\s, \\S, \\d, \\w and the dot), `*`, `+` and `|`, it finds the leftmost place with a match, there the first alternative that matches, and in it each repetition takes as much as it can. In particular a comment is a `#` with all that follows it on its line, and an identifier begins with a letter of the alphabet, `$` or `_` and goes on as long as there are these or digits.", "quantifier": "every Unicode text, every world in which a script is compiled", "why_tests_cant": "Unbounded texts.", "anchors": ["src/script/v1/matchers/whitespace.rs", "src/script/v1/matchers/identifier.rs", "src/script/v1/matchers/comment.rs", "src/script/v1/matchers/attribute.rs", "src/script/v1/matchers/regex_matcher.rs", "src/script/v1/matchers/sequence_matcher.rs", "src/script/v1/matchers/import_statement.rs"]}
{"id": "C67", "title": "What Debug prints has an end, and says what happened", "statement": "Whatever a matcher returns while a grammar runs, `Debug` can print it there and then: following parents upwards and children downwards comes to an end although the surrounding tree is unfinished, so that with all that is printed a `Debug` matcher returns, panics or does not end exactly as it does without, and so does the whole run that it is part of. What it prints is one text: the name of the matcher, up to ten bytes of the source from where it was applied, with line feeds, carriage returns and tabulators written with a backslash, the place, and the result; a returned tree without errors is shown by generations with a root that has no parent. The result can be read from the text: different results have different texts, up to tokens that have the same text themselves, if one can see where a quoted string ends. If the ten bytes do not begin and end between characters, `Debug` panics instead of running its matcher.", "quantifier": "every grammar (callbacks by contract; without ExpandRange for the layout of the tree), every source, every place, every debug mode, every heap whose parents are older than their children", "why_tests_cant": "Unbounded grammars and trees; a text without an end cannot be observed by a test.", "anchors": ["src/matchers/debug.rs:31-87", "src/token.rs:18-107", "src/matcher.rs:10-25", "src/parser_context.rs:143-152"]}
{"id": "C68", "title": "Parse trees are never freed", "statement": "Falsified expectation: that a parse tree is freed when its last reference is dropped. A token that has a child which is no error and this child refer to each other with counted references, so neither is ever freed, whatever references from outside are dropped and whatever is parsed later; of a tree without errors that has more than one token no token is ever freed. In any heap of tokens, when all references from outside have been dropped, exactly those tokens have been freed to which no references lead from a cycle of references; references that are held, and those in tokens that are there, never lead to a freed token.", "quantifier": "every grammar that keeps parents right (all matchers but ExpandRange; callbacks by contract), thus every compiled script; every text; every order in which references are taken and dropped", "why_tests_cant": "That memory is never freed, in whatever order references are dropped, is no observation that a test can make; grammars and texts are unbounded.", "anchors": ["src/token.rs:16", "src/token.rs:202-213", "src/matchers/pin.rs:66-79", "src/matchers/program.rs:694-699"]}
{"id": "C69", "title": "Compiled scripts have no cycles of references, before and after parsing", "statement": "Printing a matcher or a scope context (`to_string`, `{:?}`) ends if and only if all chains of references that start at it end, and then shows exactly the matchers and contexts that can be reached from it. A compiled script, whatever it imports, has no endless chain of references: neither its matcher nor its scope, right after compiling and after any number of parses with any results, although every parse puts matchers into the scopes; the contexts of the parses have none either. For grammars made with the library this holds for every run if the contexts that are entered rank lower than the context they are entered from; without that it need not: there is a grammar of four matchers without a cycle, in which the successful parse of one character makes a cycle, so that it can no longer be printed.", "quantifier": "every script text and every set of files it imports, every world compiled before, every sequence of texts and results; every grammar in layers whose callbacks leave scopes alone", "why_tests_cant": "Unbounded nesting of imports and sequences of parses; that printing has no end is not observable by a test.", "anchors": ["src/matchers/set_scope.rs:_exec", "src/matcher.rs:before_exec", "src/matcher.rs:29-33", "src/scope_context.rs:7", "src/scope.rs:5-17", "src/script/v1/parser.rs:build_matcher_from_tokens"]}
{"id": "C70", "title": "What a parse costs at most", "statement": "For grammars of texts, patterns, delimited texts, sequences, choices, repetitions, optional, negated, discarded and flattened parts and references, the number of tokens that a matcher makes (with those that are thrown away) is exactly what a small interpreter counts. If every repetition has a part that cannot match without consuming, then the number is at most a polynomial in the length of the unread text for grammars that are not recursive (the degree is the number of levels), and at most exponential for grammars that are not left recursive (C65 has one for which it is). Without that condition the number need not depend on the text: a repetition of something that may match without consuming makes a token in each of its rounds, up to its maximal number of rounds, which for `*` and `+` is the largest of type usize, and then does not match.", "quantifier": "every grammar of the fragment, every text, position, heap, scope and depth of recursion", "why_tests_cant": "The bounds hold for all texts and grammars; what is thrown away is not part of any result.", "anchors": ["src/matchers/program.rs:_exec", "src/matchers/discard.rs", "src/parser_context.rs:tokenize", "src/script/v1/matchers/repeat_specifier.rs:21"]}
{"id": "C71", "title": "What a parse with a script costs at most", "statement": "For compiled scripts, with names that are looked up in scopes, definitions that change while they are used, imports and attributes, the number of tokens that a parse makes (with those that are thrown away) is exactly what the interpreter of scripts counts, for the first text and for every further one. For scripts without imports, and for scripts with imports whose names keep what they stand for, in which no group has more than K parts and nothing is repeated that may match without consuming, the number is bounded whatever has been parsed before: for a text of L bytes by ((L + 1) * K + 1) to the power (L + 1) * b if the script is not left recursive, and by ((L + 1) * K + 1) to the power b if it is not recursive, where b is the depth of recursion per byte of C53, a number computed from the script. Looking up names, entering scopes, and giving tokens names and attributes make no tokens.", "quantifier": "every script, every sequence of texts parsed before, every text, heap and depth of recursion", "why_tests_cant": "The bounds hold for all scripts and texts; what is thrown away is not part of any result; and definitions change with the texts parsed before.", "anchors": ["src/matchers/program.rs:_exec", "src/matchers/discard.rs", "src/matchers/fetch.rs", "src/matchers/register.rs", "src/parser_context.rs:tokenize", "src/scope_context.rs"]}
{"id": "C72", "title": "Scripts with imports come to an end, whatever their definitions", "statement": "For a script with imports there may be a plan for each scope of the script: levels for the names, bounds for the depth of terms, and a number above everything in the scopes that are imported from. If the plans are right, which a program decides by looking at the definitions once, then the script compiles, any texts can be parsed with it one after the other, and each parse comes to an end within a depth of recursion that is linear in the length of the text. It does not matter that using a definition changes what names stand for, in the scopes of the script and of the scripts it imports (the case C53 leaves out). If also no group has more than K parts and nothing is repeated that may match without consuming, the number of tokens that a parse makes is bounded by ((L + 1) * K + 1) to the power (L + 1) * b, with b the depth per byte that the plans say, and by ((L + 1) * K + 1) to the power b if names stand only for terms with names of lower levels. A program looks for plans. If the first pattern of a script begins with a name, and what it stands for begins with a name, and so on without end, through imported files and members and the scopes they are in, then no plans are right and no parse ever returns.", "quantifier": "every script with imports and right plans, every sequence of texts parsed before, every text, heap and depth of recursion", "why_tests_cant": "Termination for all texts and after all earlier parses cannot be observed; definitions change while parsing, so each parse runs another grammar.", "anchors": ["src/matchers/program.rs:_exec", "src/matchers/fetch.rs", "src/matchers/register.rs", "src/scope_context.rs", "src/script/v1/parser.rs"]}
