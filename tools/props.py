import json
P=[]
def p(id,title,statement,quant,why,*anchors):
    P.append(dict(id=id,title=title,statement=statement,quantifier=quant,why_tests_cant=why,anchors=list(anchors)))
FX="internal/linter/source_code_fixer.go: ApplyRuleFixes"
p("C01","Applying fixes equals performing the accepted edits simultaneously","When the fixes accepted by ApplyRuleFixes are in range and do not overlap, the returned text is the original text with exactly the accepted edits substituted: every byte outside an accepted range is preserved in order, every accepted range is replaced by its text, and nothing else appears (i.e. the same as splicing the edits one at a time from right to left).","every source text, every list of diagnostics and every list of fixes per diagnostic","range positions, texts, ties and adjacency combine without bound; tests only pick examples",FX)
p("C02","Fixes of one diagnostic are applied all-or-nothing","Each input diagnostic is either applied with all of its fixes or returned in the unapplied list, never both and never neither; a diagnostic without fixes is always returned as unapplied; the `fixed` flag is true exactly when some diagnostic was applied; without any fix the text is returned unchanged.","every text and every list of diagnostics","a partition property over every multiset of diagnostics",FX)
p("C03","A diagnostic is dropped only because of a real overlap","Accepted diagnostics never overlap one another, and every dropped diagnostic that has fixes starts before the end of a fix of some accepted diagnostic that sorts earlier (greedy maximality).","every list of diagnostics","quantifies over all pairs in an unbounded list",FX)
p("C04","ApplyRuleFixes never slices out of range on well-formed input","If every fix range satisfies 0 <= pos <= end <= len(text) and the fixes of each single diagnostic do not overlap each other, ApplyRuleFixes returns normally; for a single diagnostic the in-range/no-self-overlap condition on the slice bounds is also necessary (otherwise the process panics).","every text, every list of diagnostics, including malformed ranges","panic freedom must hold for every reachable argument; a test shows only chosen ones",FX)
p("C05","The result of applying fixes does not depend on report order","When no two diagnostics share both their first start and last end, and no two fixes of a diagnostic share their range, permuting the diagnostics (worker schedule) and the fixes inside a diagnostic leaves the output text, the fixed flag and the set of unapplied diagnostics unchanged, for any sorting algorithm; with equal keys the result can depend on the order.","every permutation of every list of diagnostics, every correct (possibly unstable) sort","n! orders and an unspecified unstable sort",FX)
HL="cmd/tsgolint/headless.go: "
p("C06","Headless message framing is lossless","Decoding the byte stream made by writing any sequence of messages with payload shorter than 2^32 bytes yields exactly those messages (type and payload) in order; decoding any byte prefix of the stream yields a prefix of those messages plus an incomplete tail, never a wrong message; the 4-byte length is little-endian; a payload of 2^32 bytes or more is not recoverable.","every list of messages, every truncation point","unbounded streams and crash points",HL+"writeMessage",HL+"headlessMessageType")
p("C07","On success stdout carries each diagnostic exactly once, then timing","For every interleaving of lint workers, the bounded diagnostics channel, the buffered writer goroutine and the main goroutine, a run that returns 0 has written exactly one frame for every reported diagnostic that can be encoded (a permutation that keeps each worker's order), followed by the timing frame iff timing was requested; at every instant stdout is a byte prefix of such a frame stream; the pipeline never deadlocks and always terminates.","every schedule, channel capacity, buffer size, number of workers and diagnostics","schedules are unbounded and nondeterministic",HL+"runHeadless",HL+"writeMessage")
p("C08","Error path of the headless pipeline","When the linter returns an error the process exits with 1 and an error message is written; because the writer goroutine is not joined, diagnostics already queued may be missing from stdout and the error frame may land inside a diagnostic frame, so the frame stream is not guaranteed on this path. What is guaranteed: the bytes other than the error frame are a prefix of the diagnostic frame stream.","every schedule of writer and main goroutine after a linter error","a race; tests observe only the schedules that happen to run",HL+"runHeadless (lines 452-457)")
PL="cmd/tsgolint/payload.go: "
p("C09","V1 payloads mean the same as their V2 translation","A V1 payload with at least one file is accepted and behaves as the V2 payload with one config per file, in order, with the same rule names in the same order, no options, no overrides and no type-error reporting; a V1 payload with no files is rejected.","every V1 payload","unbounded lists of files and rules",PL+"deserializePayload")
p("C10","Payload version dispatch","version 2 is read as V2; a missing, null or 0 version is read as V1; every other integer version is rejected with an error naming it; a version that is not an integer is rejected; unknown extra fields never change the outcome.","every JSON document","every JSON value, every integer",PL+"deserializePayload",PL+"getPayloadVersion")
p("C11","Each requested file is configured by the last config naming it and linted once","If a file (after slash normalisation) is listed several times, in one config or many, the rules used for it are those of the last config listing it, and it appears exactly once in the workload.","every list of configs","all interleavings of duplicates",HL+"runHeadless (lines 275-293)",HL+"GetRulesForFile")
p("C12","Files are partitioned into programs without loss","Every requested file is in exactly one bucket: the program of the tsconfig found for it, or the unmatched list when none was found; buckets contain nothing else, no bucket is empty, and each program's files are ordered by decreasing path length; independent of map iteration order up to the order of equal-length files.","every set of files, every tsconfig assignment, every map iteration order","map order is randomised by the runtime",HL+"runHeadless (lines 286-322)")
FT="internal/utils/find_tsconfig.go: "
p("C13","Parallel tsconfig lookup equals sequential lookup","For every number of worker goroutines >= 1 and every schedule, FindTsConfigParallel terminates with the map sending every given file to the result of the single-file lookup and nothing else; it never blocks forever.","every file list (duplicates included), worker count and schedule","schedules",FT+"FindTsConfigParallel")
p("C14","Breadth-first search","BreadthFirstSearch visits only reachable nodes and each at most once, terminates on cyclic finite graphs, returns a genuine path from the stopping node back to the start that is a shortest one among all stopping nodes, stops iff a stopping node is reachable through not-yet-visited nodes, and otherwise returns the first fallback result visited.","every finite graph, start, visit function and initial visited set","graphs with cycles are unbounded","internal/utils/bfs.go: BreadthFirstSearch")
p("C15","Tsconfig search is sound and complete","FindTsconfigForFile returns only a tsconfig that includes the file; it looks in the nearest ancestor directory first, follows project references breadth-first, then continues to ancestor directories; if any config examined that way includes the file the search succeeds; it terminates for cyclic references.","every directory tree, reference graph and membership relation","cyclic reference graphs, unbounded depth",FT+"FindTsconfigForFile",FT+"findConfigWithReferences")
LN="internal/linter/linter.go: "
p("C16","Every file of a program is linted exactly once","For every number of workers >= 1, checkers >= 1 and every schedule, RunLinterOnProgram returns after each given file has been linted exactly once; it does not deadlock.","every file list, worker and checker count, schedule","schedules",LN+"RunLinterOnProgram",LN+"makeCheckerWorkloadQueue",LN+"makeSourceFileQueue")
p("C17","No type checker is used by two workers at the same time","At every instant of every schedule each type checker is held by at most one worker.","every schedule","a data-race freedom property over all schedules",LN+"RunLinterOnProgram",LN+"makeCheckerWorkloadQueue")
p("C18","Diagnostics are attributed to the rule and file that produced them","Every diagnostic reported synchronously by a rule while a file is linted carries that rule's name and that file, whatever the rule put in those fields and whatever was linted before by the same worker.","every list of files, rules (with arbitrary internal state) and syntax trees","mutable shared context across unbounded histories",LN+"emitDiagnostic",LN+"RunLinterOnProgram")
p("C19","Linting one file does not influence the next","The diagnostics for a file are the same whichever files the same worker linted before it (no listener survives a file).","every history of files on a worker","unbounded histories",LN+"RunLinterOnProgram (lines 500-540)")
p("C20","Rules do not influence each other","The diagnostics a rule produces for a file are the same whether it runs alone or with any other rules, provided rule names are distinct.","every list of rules","all subsets of rules",LN+"RunLinterOnProgram")
p("C21","Diagnostics of a file are produced in a deterministic order","The sequence of diagnostics for one file does not depend on Go's random map iteration order over the listeners returned by rules: at each node event listeners run in the order rules were configured.","every map iteration order","iteration order is randomised",LN+"RunLinterOnProgram (lines 514-532)")
p("C22","Traversal is well nested and visits each node at most once","Enter and exit events of the traversal are balanced and properly nested, a parent's enter precedes and its exit follows all events of its descendants; every node except the source file itself gets exactly one enter and one exit event of its own kind, except nodes below the (possibly computed) name of a property assignment inside an assignment pattern, which get none.","every syntax tree","trees are unbounded",LN+"visitLintNodes")
p("C23","Listener kinds never collide","Plain, exit, allow-pattern, not-allow-pattern listener keys of all syntax kinds are pairwise distinct, also under exit.","every syntax kind","pairs over the whole encoding space","internal/rule/rule.go: ListenerOnExit, ListenerOnAllowPattern, ListenerOnNotAllowPattern")
p("C24","Timing mode does not change diagnostics","With --debug timings the same diagnostics are produced in the same order as without, and for every rule the recorded number of calls equals the number of files it ran on plus the number of its listener invocations.","every file list, rule set, tree and clock","two code paths that must agree for all inputs",LN+"RunLinterOnProgram (lines 545-614)")
p("C25","Timing totals are schedule independent","The collected timing records have one record per rule name with total durations and calls summed over all workers, independent of merge order, sorted by decreasing duration then name.","every set of workers and merge order","all merge orders","internal/linter/timing.go: merge, Collect")
p("C26","Fixes and suggestions appear only when requested","Without --fix no emitted diagnostic message carries fixes and the rule's fix generator is never run; without --fix-suggestions likewise for suggestions; with the flags every fix and suggestion is carried over unchanged.","every report call and flag combination","all report methods x flags x contents",LN+"ruleContextBuilder",HL+"runHeadless (lines 340-395)")
p("C27","TypeScript diagnostics are only those requested and only for the file itself","Syntactic and semantic diagnostics are reported only if their flag is set, only for linted files, and only diagnostics located in that very file; each carries that file's path and TS code.","every program, file list and flags","all flag/file/diagnostic combinations",LN+"reportTypeScriptDiagnostics")
p("C28","An invalid tsconfig does not stop other programs","If a program cannot be created because of configuration diagnostics, exactly those are reported, none of its files is linted and all other programs and the unmatched files are still processed; a requested file missing from its program stops the run with a panic, never silently.","every workload and map order","random map order",LN+"RunLinter","internal/utils/create_program.go: CreateProgram")
p("C29","Exit codes","The headless process exits with 0 iff help was requested or options, profiling, cwd, stdin, payload, linting and the timing message all succeeded without a panic, with 2 iff the flags were malformed or it panicked (file missing from its program, unknown rule, diagnostic with an invalid fix or label range), otherwise 1; lint findings alone never change the exit code.","every combination of failures","combinatorial",HL+"runHeadless")
p("C30","Source overrides shadow the file system exactly","With overrides, reading an overridden path yields the override and every other path reads the underlying file; existence is the union; all other operations are delegated unchanged. Override keys are compared with slash-normalised lookups, so an override given with backslashes never takes effect.","every override map, underlying file system and path","all paths","cmd/tsgolint/overlayfs.go")
p("C31","Cached file reads are repeatable","After a path is read once through the caching file system later reads return the same answer even if the disk changes, for every sequential history; for concurrent first reads with a changing disk this can fail.","every history of reads and disk changes","histories","patches/*cachedvfs*","internal/utils/host.go")
p("C32","A source file is shared by identity between programs","For every history of concurrent requests with the same parse options all callers obtain the same source file object.","every interleaving","schedules","internal/utils/host.go: GetSourceFile")
p("C33","The in-memory overlay file system is coherent","Virtual files and directories are consistent: a directory exists if a virtual file lies below it or the base has it; accessible entries list exactly the virtual children plus the base ones.","every virtual file map and path","all paths","internal/utils/overlay_vfs.go")
p("C34","Quoted string literals denote the original text","QuoteSingleStringLiteral produces a JavaScript single-quoted literal whose value is the original string, stays on one line, and differs for different strings.","every string","all strings","internal/utils/string_literal.go")
p("C35","Collection helpers meet their specification","Filter, FilterIndex, Map, TryMap, Some, Every, Flatten and Set behave as their mathematical counterparts and do not modify their inputs.","every slice and predicate","all inputs","internal/utils/utils.go","internal/utils/map.go","internal/utils/set.go")
p("C36","BoolOr options round trip","Reading a bool-or-object option gives true, false or the object for a boolean or an object of the right shape, and the unset option (which counts as false, never an error) for anything else; writing it and reading it again changes nothing.","every JSON value","all JSON values","internal/utils/utils.go: BoolOr")
p("C37","Type-or-value specifiers round trip","A specifier parsed from JSON and written back is equivalent; strings are universal specifiers; which forms are accepted is exactly characterised (a null is accepted as the empty name and an object without a source is a file specifier).","every JSON value","all JSON values","internal/utils/type_matches_specifier.go")
p("C38","Type specifier matching","A type matches a specifier list iff it matches one of them; a package specifier matches iff a declaration file lies in that package (or its @types mangling) inside node_modules.","every path, package name and specifier list","all paths","internal/utils/type_matches_specifier.go")
p("C39","Unsafe assignment check is correct on recursive types","The check terminates on cyclic type graphs and reports unsafe iff there is a position, reachable through matching generic arguments, where any is assigned to a non-any/unknown receiver.","every finite type graph","cyclic graphs","internal/utils/ts_eslint.go: isUnsafeAssignmentWorker")
p("C40","any discrimination","A type is classified as any / any[] / Promise<any> / safe exactly according to its shape, terminating on self-referential promise types.","every type graph","cyclic graphs","internal/utils/ts_eslint.go: discriminateAnyType")
p("C41","Debug option parsing","The --debug option is accepted iff it is a comma separated list of the known values; timings are enabled iff it lists timings.","every string","all strings","cmd/tsgolint/main.go: parseDebugTimings")
p("C42","consistent-return keeps functions apart","Whether a return statement is reported depends only on the returns and type of the innermost enclosing function, for every nesting of functions.","every nesting of functions and returns","unbounded nesting","internal/rules/consistent_return/consistent_return.go")
p("C43","require-await reports exactly async functions without await","An async non-empty non-generator function is reported iff no await, for-await, await-using or returned thenable lies in it outside nested functions.","every nesting","unbounded nesting","internal/rules/require_await/require_await.go")
p("C44","return-await decision table","Whether a returned promise must be awaited is decided by the configured mode and the innermost enclosing try context, with the documented meaning of each mode.","every nesting of try/catch/finally and every mode","unbounded nesting","internal/rules/return_await/return_await.go")
p("C45","switch exhaustiveness is exact","A switch over a union of literals is reported as non-exhaustive iff some literal of the union has no case (and no allowed default), and the missing list is exactly those literals.","every union and case list","all unions","internal/rules/switch_exhaustiveness_check/switch_exhaustiveness_check.go")
p("C46","no-mixed-enums is exact","An enum gets at most one report, at its first member that is known to be a string where the first member of the enum (of its first declaration, if declarations are merged) is known to be a number or vice versa, unless a member of unknown kind comes before; the rule fails exactly if a non-empty enum is merged with a first declaration that has no members.","every list of members","all member lists","internal/rules/no_mixed_enums/no_mixed_enums.go")
p("C47","Template text escaping is lossless","An interpolation is reported exactly if it is a literal, template, undefined/NaN/Infinity/true/false/null without comments (white space before a line break excepted). Whatever subset of the fixes is applied, the template evaluates to the same string and no new substitution appears, unless a piece of text ends in an escaped null or a carriage return; the edits of a fix do not overlap and touch nothing else.","every text","all strings","internal/rules/no_unnecessary_template_expression")
p("C48","Duplicate type constituents are reported exactly","A constituent of a union/intersection is reported as a duplicate exactly if a constituent of the same type precedes it that is itself not reported (nor in a reported group); what remains has pairwise different types; every group keeps a constituent; removing any of the reported constituents does not change the set of values (undefined on optional parameters excepted), unless a group has the type of something in it; the fix removes the constituent with one separator and nothing else.","every constituent list","all lists","internal/rules/no_duplicate_type_constituents")
p("C49","A successful run, end to end","If the headless process exits with 0, stdout consists of the diagnostic messages followed by the timing message if asked for; exactly the files the client asked for are linted, each once and under the rules of the last config naming it (files of an invalid tsconfig excepted); rule diagnostics are exactly what those rules report, each file's in order; the remaining diagnostics are exactly the problems of the invalid tsconfigs and the requested TypeScript diagnostics of the linted files.","every payload, file system, rule behaviour, map order, schedule and flush pattern","whole-program statement over all schedules",HL+"runHeadless")
p("C50","Rule options: given values win, missing ones get the documented default","For every rule with options: an option given with a non-null value has that value; an option missing or null has the default its schema documents (or the zero value); there are no other options; the rule panics iff the options are not an object or an option has the wrong type.","every rule, options value and option","all JSON values, all rules","internal/utils/utils.go: UnmarshalOptions","internal/rules/*/options.go")
p("C51","Builtin-likeness follows parts, constraints, own symbol and base types","A type counts as like a builtin (Promise, Error, ...) exactly if: an intersection has such a part, all parts of a union are, the constraint of a type parameter is, the type's own symbol is the named one of the default library, or (the symbol being another) a base class or interface is. The search ends on every well-founded type graph. Matching a type or its base types finds exactly an ancestor that satisfies the predicate.","every type graph, predicate, symbol table and list of names","all type graphs","internal/utils/builtin_symbol_likes.go","internal/utils/base_type_utils.go")
p("C52","Type names, call signatures, thenables and awaitability","A type is named 'string' exactly if it is made of string-like parts (or is printed so) and otherwise by the printed form of itself or its declared constraint; the call signatures of a union are all of its parts', of an intersection those of the only part with any; a type is thenable exactly if a part has a 'then' that can be called with a callable first argument; a value may, must or must not be awaited according to its constraint being any/unknown, thenable or neither.","every type graph","all type graphs","internal/utils/ts_eslint.go","internal/utils/ts_api_utils.go")
p("C53","Rules see a file as nested entries and exits","A rule gets the entry of each reached node before and its exit after everything reached below it, siblings in document order; a rule that keeps one scope per function therefore reports what it would report looking at each function in isolation, and no scope survives the end of a file.","every syntax tree, every rule with a stack of scopes","unbounded nesting","internal/linter/linter.go visitNode","internal/rule/rule.go ListenerOnExit")
p("C54","Removing comparisons with boolean literals keeps conditions","A comparison is reported exactly if it is an (in)equality between true/false and an expression whose (constraint) type is boolean-like, or a union with boolean and nullish parts unless the option for that literal allows it. If the expression can only be boolean, null or undefined, the replacement is truthy exactly when the original was true; the edits produce exactly the replacement text; operators written apply to the whole expression; the replacement can only be torn apart by its surroundings in one exactly described case (hazard); unions with further parts are treated as nullable booleans (hazard).","every comparison, operand type, option, value and surrounding text","all values and texts","internal/rules/no_unnecessary_boolean_literal_compare/no_unnecessary_boolean_literal_compare.go")
p("C55","startsWith/endsWith replacements keep the meaning","Whenever prefer-string-starts-ends-with offers to replace a comparison of s[i], charAt, indexOf, lastIndexOf, slice, substring, match or a regular expression test by startsWith/endsWith, the two have the same value for all strings (outside exactly described situations shown to be real hazards); patterns accepted match exactly the strings starting/ending with the extracted text; the quoted text denotes that text; literals are split correctly; the edits produce exactly the replacement.","every string, expression value, pattern, flags and surrounding text","all strings and patterns","internal/rules/prefer_string_starts_ends_with/prefer_string_starts_ends_with.go")
p("C56","includes replacements keep the meaning","An indexOf comparison is reported exactly if its operator and number decide between -1 and positions for every possible index and every declaration of the method called stands beside an includes with the same parameters; for strings and arrays the index is a position exactly if includes holds (except NaN and holes, shown to be hazards; optional chains are a hazard too). A harmless pattern accepted in a test call matches exactly the strings that include the value of the string literal written; patterns that are not harmless but accepted are shown. Calls of test are rewritten exactly if they have one argument whose type has includes and an accepted pattern, and, spread elements and numbers apart (the former a hazard), what is put before .includes can stand there. The edits produce exactly the replacement text.","every operator, number, array, string, pattern and surrounding text","all indices, strings and patterns","internal/rules/prefer_includes/prefer_includes.go")
p("C57","dot-notation reports exactly the accesses meant and keeps the property","An access with brackets is reported exactly if it is not allowed by type (private, protected, index signature options, by the declaration that decides for reading or writing), its argument denotes a property whose name is an ASCII identifier name, no ES3 reserved word unless keywords are allowed, and not matched by the allowed pattern; a dotted access exactly if keywords are not allowed and the name is a reserved word. The new spelling is never reported in turn. The edits yield exactly the dotted (bracketed) spelling, an integer literal being separated from the dot and the name from what follows.","every access, option set, declaration list and surrounding text","all names, declarations and texts","internal/rules/dot_notation/dot_notation.go")
p("C58","restrict-plus-operands is exact, and sound about run-time values","An operand is reported exactly if one of its union parts is a symbol, never, unknown, or (unless allowed) any, boolean, nullish, a RegExp, or an object; otherwise the mixture of strings and numbers (unless allowed) or of numbers and bigints is reported exactly if present. With nothing allowed, an addition that is not reported only ever adds two strings, two numbers or two bigints. Exchanging the operands does not hide a report.","every pair of operand types and all options","all unions of types","internal/rules/restrict_plus_operands/restrict_plus_operands.go")
p("C59","strict-boolean-expressions checks each condition once and judges it exactly","In every file the expressions checked are exactly those whose value is used as a condition (tests, operands of !, left sides of && and ||, right sides if the whole is a condition, asserted arguments), each once. A type's verdict is the documented function of its parts, independent of their order; with nothing allowed, an unreported condition is always a boolean (or true/nullish); with nullable options off, an unreported condition that may be nullish is falsy exactly if nullish. The asserted argument is the one the signature asserts.","every syntax tree, union type, option set and call","all nestings of conditions and all unions","internal/rules/strict_boolean_expressions/strict_boolean_expressions.go")
p("C60","no-unsafe-enum-comparison is exact and its suggestion keeps the comparison","A comparison (or case) is reported exactly if a side may be an enum member, the two sides share neither an enum nor a type part, and one side may be a member of a number (string) enum while the other is always a number (string); the order of operands does not matter. The static value computed for an operand is the value JavaScript gives it. A suggested member has a value equal to that of the operand it replaces, its name is written so that it denotes the member, and the enum's name is one that is usable there (dotted names excepted: shown as a hazard); there is no suggestion only if no member qualifies.","every pair of union types, every constant expression, every list of enum members","all unions and expressions","internal/rules/no_unsafe_enum_comparison/no_unsafe_enum_comparison.go","internal/rules/no_unsafe_enum_comparison/suggestion.go","internal/rules/no_unsafe_enum_comparison/static_value.go")
p("C61","Redundant constituents are redundant","no-redundant-type-constituents reports, in a union, exactly the any/unknown/never parts and, per constituent, the literals whose primitive type is elsewhere in the union; dropping what it calls redundant leaves the set of values unchanged, and what it says overrides everything does. In an intersection without unions it reports exactly the primitives a literal of which is present (dropping them changes nothing); with unions, exactly the unions all of whose parts are literals of primitives present. None of this depends on the order in which Go's map is read.","all lists of constituents with any parts, all meanings of types, all map orders","Types and map orders are unbounded.","internal/rules/no_redundant_type_constituents/no_redundant_type_constituents.go:getTypeNodeTypePartFlags")
p("C62","The memo of no-base-to-string does not change answers","For types that do not contain themselves, whether an expression is reported by no-base-to-string, and with which certainty, is given by the rule's equations and does not depend on the expressions checked before it; the rule ends on every finite set of types, recursive or not. For types that contain themselves it does depend on the history (a counterexample is proved).","all type graphs, all files (sequences of checked expressions), all histories of the memo","Histories and type graphs are unbounded.","internal/rules/no_base_to_string/no_base_to_string.go:certaintyMemo","internal/rules/no_base_to_string/no_base_to_string.go:NoBaseToStringRule")
p("C63","Floating promises are exactly the dropped ones","With a semantics of expression statements (values pass through commas, void, conditionals, ||/&&/??, .catch, .then, .finally; a promise nobody handles may be dropped), no-floating-promises reports a statement if and only if some evaluation drops an unhandled promise or array of promises, for statements whose commas and voids are at the top and whose choices are not parenthesised; messages about arrays are about arrays; the suggestions produce `await e` / `void e` with parentheses where needed. Parentheses below the top, commas inside choices, foreign finally methods and stored arrays are proved to be exceptions.","all expression trees, types, options","Expression trees and types are unbounded.","internal/rules/no_floating_promises/no_floating_promises.go:NoFloatingPromisesRule")
p("C64","await-thenable reports exactly what is certainly no promise","An `await` is reported, at its token, exactly if the type of its operand (for a type parameter: the constraint) is neither any nor unknown nor thenable. Elements of an array literal passed to Promise.all, allSettled, any or race are reported, in order, exactly if every part of the type is certainly no promise; other arguments exactly if all their parts are iterable and one gives values of which a part is certainly no promise. `for await` and `await using` are reported exactly if the value is not any and no part of its type has the async symbol. Each suggestion removes exactly the word `await`, and none is made for an `await using` with several declarations.","all type graphs, operands, array literals with holes, callees, declaration lists and source texts","Tests fix a few types; the claims range over every type graph and every text around the token.","internal/rules/await_thenable/await_thenable.go:AwaitThenableRule","internal/utils/ts_eslint.go:NeedsToBeAwaited","internal/utils/ts_api_utils.go:IsThenableType")
p("C65","restrict-template-expressions judges every part of every type","For each expression of an untagged template literal the rule reports it exactly if some part of its type has no intersection member the options allow (strings always; any, booleans, nullish, numbers, never, RegExp and listed types by option; arrays by their element type). Turning an option on never adds a report. The check ends whenever arrays are not nested for ever - and provably never ends on `type A = A[]` with allowArray.","all type graphs, option values and templates","Tests list single types; termination, exactness and monotonicity are statements about all type graphs.","internal/rules/restrict_template_expressions/restrict_template_expressions.go:RestrictTemplateExpressionsRule")
p("C66","non-nullable-type-assertion-style reports exactly the assertions that only remove null","An assertion is reported exactly if it is not `as const`, neither type is any or unknown, the asserted type has exactly the non-null parts of the original type, the original has a null part, and no asserted part may still be null. The suggestion turns `e as T` into `e!` or `(e)!`.","all type graphs, both assertion syntaxes, all source texts","Set equality over unions of any size and edits in any text are not covered by samples.","internal/rules/non_nullable_type_assertion_style/non_nullable_type_assertion_style.go:NonNullableTypeAssertionStyleRule")
p("C67","related-getter-setter-pairs pairs accessors by name","A getter is reported only if the class has a setter of the same name with one parameter to whose type the getter's declared type is not assignable; and if no name is used for two getters or two setters, every such getter is reported, whatever the order of the members. Members with the same name are the same property (big integers and computed literals with backslashes aside).","all member lists, in any order","Orders and interleavings of members are unbounded.","internal/rules/related_getter_setter_pairs/related_getter_setter_pairs.go:RelatedGetterSetterPairsRule","internal/utils/ts_eslint.go:GetNameFromMember")
p("C68","no-array-delete reports and rewrites element deletions of arrays","`delete` is reported exactly if its operand, parentheses apart, is an element access on a union of arrays, an intersection with one, or an array; the suggestion turns `delete a[i]` into ` a.splice(i, 1)` and keeps all other text.","all types and all source texts","All nestings of parentheses and all texts around the tokens.","internal/rules/no_array_delete/no_array_delete.go:NoArrayDeleteRule")
p("C69","only errors are thrown and only errors reject promises","`throw e` is reported exactly if its type is not listed and it is undefined, or is no error and not - as far as the options allow - any, unknown or a caught error thrown again (catch clause, first parameter of the handler of p.catch, or of the second handler of p.then). `P.reject(x)` and `reject(x)` of `new Promise(...)` are reported exactly if x is no error, read-only error, listed type or allowed any/unknown, or is missing and that is not allowed.","all types, declarations, handler positions and option values","Every combination of options, types and syntactic positions.","internal/rules/only_throw_error/only_throw_error.go:isRethrownError","internal/rules/prefer_promise_reject_errors/prefer_promise_reject_errors.go:PreferPromiseRejectErrorsRule")
p("C70","void, sort, for-in and unary minus are reported exactly for the types they are about","`void e` is reported exactly if all parts of the type are void-like (with checkNever: or never) and the fix removes only the word; `a.sort()`/`a.toSorted()` exactly if all parts are arrays and it is not an ignored string array; `for in` exactly if some constituent is array-like; unary minus exactly if some part is not any, never, number or bigint, naming the first.","all type graphs and option values","Unions and intersections of any size and depth.","internal/rules/no_meaningless_void_operator/no_meaningless_void_operator.go:NoMeaninglessVoidOperatorRule","internal/rules/require_array_sort_compare/require_array_sort_compare.go:RequireArraySortCompareRule","internal/rules/no_for_in_array/no_for_in_array.go:NoForInArrayRule","internal/rules/no_unsafe_unary_minus/no_unsafe_unary_minus.go:NoUnsafeUnaryMinusRule")
p("C71","prefer-reduce-type-parameter only reports where dropping the assertion is safe","A call is reported exactly if it is `a.reduce(f, e as T)` or with `<T>e`, every constituent of the type of a is an array and e is assignable to T; the fix moves the type into the type arguments, or only drops the assertion if there are some.","all type graphs and source texts","All texts and all unions.","internal/rules/prefer_reduce_type_parameter/prefer_reduce_type_parameter.go:PreferReduceTypeParameterRule")
p("C72","promise-function-async reports exactly the functions that return promises without being async","A function without `async` is reported with a fix exactly if every signature returns a promise (throughout, for a written return type; possibly, for an inferred one), with a suggestion if its inferred type has other parts too, and without either if a signature returns any or unknown and that is not allowed; the check ends on every type that is not below itself; async functions and functions without a body are never reported. In every file the functions checked are just those of the kinds the options ask for, except abstract methods, and each is checked once.","all type graphs, option settings, functions and source texts","Unbounded unions, intersections, base types and signatures.","internal/rules/promise_function_async/promise_function_async.go:PromiseFunctionAsyncRule,containsAllTypesByName")
p("C73","no-unnecessary-qualifier only removes qualifiers whose name resolves to the same symbol","Exactly those accesses are reported whose qualifier names an enclosing namespace or enum and whose name looked up in scope gives the accessed symbol, the outermost of nested ones only, each once and in document order, and the rule's state is restored at the end of the file; if meanings and flags agree, the bare name refers to the same symbol.","all syntax trees, scopes and symbols","All nestings of namespaces and accesses.","internal/rules/no_unnecessary_qualifier/no_unnecessary_qualifier.go:NoUnnecessaryQualifierRule")
p("C74","prefer-regexp-exec never rewrites a match with the global flag","A call s.match(x) is reported only if x is statically a non-global pattern or its type is only string or only RegExp; whatever the argument's value at run time, it has no flag g unless it copies a regular expression; flags of every well-formed literal are found; following constants ends; a pattern without escaped slashes is turned into one literal standing for the pattern.","all regular expression texts, all environments of constants, all arguments","Unbounded texts and chains of constants, cyclic ones included.","internal/rules/prefer_regexp_exec/prefer_regexp_exec.go:PreferRegexpExecRule,extractRegexFlags,getStaticStringOrRegex")
p("C75","no-implied-eval reports exactly the global evaluators","A call or new is reported exactly if its callee is the global Function constructor, or a timer function or execScript not declared in this file whose first argument is not known to be a function.","all callees and arguments","All forms of callee and argument.","internal/rules/no_implied_eval/no_implied_eval.go:NoImpliedEvalRule")
p("C76","no-unnecessary-type-arguments only drops an argument equal to its default","The last type argument is reported exactly if its parameter has a default and the argument is the same type, unless it is the only argument of a `new` whose value arguments could infer it; if defaults do not refer to the parameters of their own declaration, the completed argument list stays the same; the parameters are taken from the kind of declaration the place calls for, whatever the sort does with ties: of type references and `implements` those of a type, after `extends` those of a value, in calls, `new`, tags and JSX elements those of the resolved signature, and of a `new` without any those of the class.","all type references, parameter lists, declarations and sort implementations","All argument lists and declaration orders.","internal/rules/no_unnecessary_type_arguments/no_unnecessary_type_arguments.go:NoUnnecessaryTypeArgumentsRule,getTypeParametersFromType,getTypeParametersFromCall,isInTypeContext")
p("C77","unbound-method reports exactly detached methods","An access is reported exactly if its value is not used up where it stands (tested, compared, called, accessed, assigned to, possibly after being passed on by parentheses, assertions and logical operators), it is not natively bound and its declaration is a method that needs its object; a property of a pattern is reported at most once, exactly if it is such a method in the initialiser's type or in a constituent of the pattern's type; the properties looked at are exactly those a binding pattern takes under an identifier and an assignment pattern takes under any name (so string names in declarations and nested assignment patterns are passed over, a hazard), with the initialiser of the declaration or the right-hand side; patterns inside type-only declarations are left alone; the rule panics exactly if a `this` parameter has no annotation.","all expressions and contexts, type graphs, declarations and member tables","All nestings and all type graphs.","internal/rules/unbound_method/unbound_method.go:UnboundMethodRule,isSafeUse,isNodeInsideTypeDeclaration,checkMethod,checkIfMethod")
p("C78","no-confusing-void-expression reports exactly used void values","An expression is reported exactly if its type includes void, its value is used and the options do not allow that use, with the message of the use; expression statements are never reported; a return is treated as final exactly if it is the last statement of a function body; the fixes give the announced text in any order of application that is stable.","all contexts, option settings, functions and source texts","All nestings and texts.","internal/rules/no_confusing_void_expression/no_confusing_void_expression.go:NoConfusingVoidExpressionRule")
p("C79","prefer-find reports exactly first elements of filtered arrays and its suggestion keeps them","An expression is reported exactly if it takes the first element (by `[k]` whose property key is \"0\", or by `.at(k)` where k truncates to zero) of an object every possible source of which, through parentheses, commas and both branches of conditions, is a non-optional call of `filter` on an array (or a nullable one); constant keys are evaluated exactly, following `const` declarations even if they are cyclic; on arrays without holes `find` gives the same value; the suggestion replaces exactly the filter names and removes the access from its dot or bracket on.","all expressions, all constant graphs, all types, all texts and numbers of filters","expressions, constant chains and texts are unbounded; cyclic constants would loop for ever","internal/rules/prefer_find/prefer_find.go:PreferFindRule,getStaticValue,parseArrayFilterExpressions,findArrayElementAccessStart")
p("C80","no-unsafe-member-access reports each unsafe access exactly once","Visiting a file reports exactly the member accesses on an `any` value that are not an allowed `?.`, not inside a heritage clause, and do not directly continue a tainted access; each once, with the message about `this` exactly if the access begins with an `any` `this` and noImplicitThis is off. In each chain the first unsafe access is reported and no later one. Computed names of type any are reported unless they are literals or ++/--. Finding: parentheses restart a chain.","all syntax trees, types and options","The cache and the recursion over objects interact with the visiting order; samples fix one shape.","internal/rules/no_unsafe_member_access/no_unsafe_member_access.go:checkMemberExpression","internal/utils/ts_eslint.go:GetThisExpression")
p("C81","no-unsafe-call reports exactly the calls of values not known to be callable","A call, new or template tag is reported exactly if its callee is any (or the error type), or a Function without construct signatures and without (for new: without non-void) call signatures; import() never; the message is about `this` exactly if the callee is any and begins with an any `this`.","all callees and forms","The table has to hold for all combinations of signatures.","internal/rules/no_unsafe_call/no_unsafe_call.go:checkCall","internal/utils/ts_eslint.go:GetThisExpression")
p("C82","no-unsafe-argument compares each argument with the parameter it is bound to","For a call whose callee is not any: each plain argument and each element of a spread tuple, at any position after plain arguments and tuples, is reported exactly if assigning it to the parameter it is bound to (fixed, element of a rest array, element of a rest tuple; the last rest type after a tuple with a rest) is unsafe; tagged templates start at the second parameter; spread any and any[] are always reported; arguments skipped for speed change nothing; no index is ever out of range, and the only panic is a missing signature.","all parameter lists, argument lists and types","The cursor moves through unboundedly many combinations of spreads and rest parameters.","internal/rules/no_unsafe_argument/no_unsafe_argument.go:getNextParameterType","internal/rules/no_unsafe_argument/no_unsafe_argument.go:checkUnsafeArguments")
p("C83","no-unsafe-return reports exactly unsafe returned values","A returned any, any[] or promise of any is reported exactly if it is inside a function whose annotation does not allow it, whose signatures do not accept the corresponding unknown, and that is async if the value is a promise; any other value is reported exactly if assigning it to the first signature's return type is unsafe; the function meant is the innermost enclosing one. In every file each returned value, of a statement or of an arrow function without braces, is checked once.","all returned expressions, function types, overload lists and options of the enclosing function","Tests cover a few overload sets; the claim ranges over every list of signatures and every answer of the type checker.","internal/rules/no_unsafe_return/no_unsafe_return.go:checkReturn","internal/utils/ts_eslint.go:GetParentFunctionNode")
p("C84","no-unsafe-assignment reports exactly assignments of any","An assignment is reported exactly if any flows into something other than unknown, or, where there is a type to compare with, if any meets another type argument in the same position; otherwise its pattern is taken apart and exactly the targets receiving an any element or property, or taking apart any[], are reported, in source order and once each; spreads in array literals are reported exactly for any and any[]; object literal members exactly if unsafe and before the first member initialised by an assignment (a finding); the report is placed at the first `=`, else the last colon, else the receiver. The places looked at are exactly initialised class properties, parameters, variables, elements of binding patterns, shorthand defaults, assignments with = and JSX attributes, each compared with its declared type if it has one.","all assignments, nested patterns, types and answers of the type checker","Patterns nest without bound and the type graph may be cyclic; tests sample a few shapes.","internal/rules/no_unsafe_assignment/no_unsafe_assignment.go:checkAssignment","internal/rules/no_unsafe_assignment/no_unsafe_assignment.go:checkArrayDestructure","internal/rules/no_unsafe_assignment/no_unsafe_assignment.go:assignmentRelationRange")
p("C85","no-unsafe-type-assertion reports exactly unsafe assertions","A type assertion is accepted exactly if it asserts the very type of the expression, or a type the (widened) expression is assignable to while no any flows in either direction at any corresponding position and it does not turn unknown into any; otherwise it is reported with the message of its reason: from any, to any, unconstrained or constrained type parameter, or narrower type.","all pairs of types and answers of the type checker","The type graph may be cyclic and references nest without bound; tests sample a few pairs.","internal/rules/no_unsafe_type_assertion/no_unsafe_type_assertion.go:checkExpression")
p("C86","prefer-return-this-type reports exactly methods that return this","The first mention of a class in the return type of its method or function-valued property is reported exactly if there is no `this` parameter and the body returns this somewhere and nowhere a value of the class's own type; the fix replaces exactly that mention by `this`. In every file each method of a class and each property of a class whose value is a function (not in parentheses) is checked once, and nothing else.","all classes, return type annotations (nested unions) and lists of return statements","Annotations nest and bodies have any number of returns; tests sample few.","internal/rules/prefer_return_this_type/prefer_return_this_type.go:checkFunction")
p("C87","use-unknown-in-catch-callback-variable reports exactly callbacks that take the error as something other than unknown","For `catch` (first argument) and `then` (second argument) calls on thenables without earlier spread, exactly the functions the argument may evaluate to whose type has a call signature with a first parameter not unknown are reported, in source order; the suggestion inserts or replaces the annotation of the parameter and nothing else. It panics on a rest parameter of the empty tuple type (a finding).","all argument lists, callback expressions, callback types and parameters","Expressions nest without bound and types have any number of parts and signatures.","internal/rules/use_unknown_in_catch_callback_variable/use_unknown_in_catch_callback_variable.go:collectFlaggedNodes","internal/rules/use_unknown_in_catch_callback_variable/use_unknown_in_catch_callback_variable.go:isFlaggableHandlerType")
p("C88","no-unnecessary-type-conversion reports exactly conversions of values already of the type, and they are harmless","`x + \"\"`, `\"\" + x`, `x += \"\"`, String/Number/Boolean/BigInt calls, `.toString()`, `+x`, `!!x` and `~~x` are reported exactly if every part of the converted type is already of that primitive type (for `~~`: integer literals); evaluating a reported conversion gives the value itself, for `~~` within 32 bits; the suggestions replace the conversion by the (parenthesised) inner expression, with `satisfies` in the second.","all expressions, types and JavaScript values","The claim is about every runtime value of every type; tests run no JavaScript.","internal/rules/no_unnecessary_type_conversion/no_unnecessary_type_conversion.go:NoUnnecessaryTypeConversionRule")
p("C89","no-useless-default-assignment reports exactly defaults whose type excludes undefined, and they are never used","A default value in a pattern is reported exactly if the type found by following the pattern from its initialiser or parameter excludes undefined; a parameter's by its contextual signature; `= undefined` always. In every execution in which types tell the truth, keys are not computed, tuples have fixed length and no array is taken apart with a default in between, a reported default value is never used; the edits remove exactly the default value and put `?` behind the name.","all nestings of patterns, all types and all run-time values","The claim is about every execution of the linted program; tests run none.","internal/rules/no_useless_default_assignment/no_useless_default_assignment.go:NoUselessDefaultAssignmentRule")
p("C90","consistent-type-exports reports exactly value exports of types and its fix keeps every export","Following aliases always ends, and finds whether an exported symbol is a type; a named export is reported exactly if a specifier without `type` stands for a type; if every specifier is resolved, the replacement exports the same names, as types exactly the types; `export *` is reported exactly if the module exports no value, and `type ` goes before the asterisk.","all alias graphs, cyclic ones included, and all export declarations","Aliases may be chained or cyclic at will, and the fix is rebuilt from texts; tests try single chains.","internal/rules/consistent_type_exports/consistent_type_exports.go:ConsistentTypeExportsRule")
p("C91","no-misused-spread reports exactly spreads of the listed kinds","A spread in an object is reported exactly if the type is not allowed and a constituent, through unions, intersections and constraints, is a promise, function without properties, map, array, iterable (no string), class instance or class, with the message of the first that applies; in arrays and calls exactly if a constituent is a string; `Object.fromEntries` is suggested exactly if every part is a map, and turns `{ ...m }` into `Object.fromEntries(m)`.","all types, options and layouts of the literal","Types nest without bound and several kinds may apply at once.","internal/rules/no_misused_spread/no_misused_spread.go:NoMisusedSpreadRule")
p("C92","strict-void-return complains exactly about values returned where nothing is wanted","Where the context wants a function that returns nothing, exactly these are reported: non-literal functions and generators with a signature returning something, async functions, arrow expressions, annotations other than void, and every return statement of the function itself (not of nested functions) that returns something; the contexts are contextual types all of whose signatures return void, call signatures at the argument's position, and overridden members.","all functions, nestings of functions, signatures and class hierarchies","Return statements nest without bound and overloads combine freely.","internal/rules/strict_void_return/strict_void_return.go:StrictVoidReturnRule")
p("C93","prefer-readonly-parameter-types: exact reachability of writable parts, termination","For every type graph, however types refer to each other, when the judgement answers, a type counts as readonly exactly if nothing writable (a mutable array or tuple, an unprotected property, a writable index signature) is reachable from it through unions, intersections with arrays, elements, visible properties and index signatures. The judgement answers whenever finitely many types are reachable and readonly arrays are not nested in themselves for ever; for `type T = readonly T[]` it never ends. A parameter is reported exactly if the options ask for it, its type is not readonly and it is not a (union of) branded literal(s).","all type graphs (cyclic ones included), options and parameters","Type graphs are unbounded and cyclic; tests use a few shapes and cannot show that the seen-set never hides a mutable part.","internal/rules/prefer_readonly_parameter_types/prefer_readonly_parameter_types.go: isTypeReadonlyRecurser, isTypeReadonlyObject, isTypeReadonlyArrayOrTuple, isTypeBrandedLiteralLike, checkParameter")
p("C94","prefer-readonly: exactly the never-written private properties, in order, with a harmless fix","For every file and every nesting of classes and functions, the rule reports exactly the private (or #private) properties and parameter properties that are not readonly, no accessors, have a plain name, and that the code of their class never writes - for instance members, except directly in the constructor -, classes from the outside in, instance members before static ones. Assignments, compound assignments, ++, --, delete and array/object patterns in the documented forms always count as writes, so that the `readonly` the fix adds breaks none of them. A type belongs to a class exactly if its symbol or that of a transitive base type is the class's, also with cyclic inheritance, and the search always ends. The fix inserts `readonly ` and, exactly when the constructor rewrites a widened literal, the type annotation.","all syntax trees of files, class/scope nestings, type graphs and source texts","The state of the rule is a stack of class scopes with ordered maps; interactions of nesting, order and forms of writing are unbounded.","internal/rules/prefer_readonly/prefer_readonly.go:PreferReadonlyRule")
p("C95","no-unnecessary-type-parameters: the bounded, early-ending count is exact up to two; reports; removal","For every type graph, cyclic ones included, the count of a type parameter, when at most two, is the number of its uses in the signature or class (twice where several uses are assumed; constraints of reached type parameters once; one default), although the walk visits no type more than nine times and stops as soon as every candidate is used often enough; conversely a parameter used at most twice gets that count (if there is only one default). The walk ends whenever finitely many types are reached. A type parameter is reported exactly if it is not referenced twice in the signature and used once or twice, with the first reference as label. The suggestion replaces every reference outside the removed list entry by the constraint (in parentheses where needed) and removes the entry.","all type graphs, declarations, syntax trees, orders of an unstable sort and source texts","Bounded walks over unbounded cyclic graphs with early exit: tests show single counts, not that cutting never changes a decision.","internal/rules/no_unnecessary_type_parameters/no_unnecessary_type_parameters.go:NoUnnecessaryTypeParametersRule")
p("C96","no-misused-promises reports exactly the misused promises","A node is reported as a promise in a condition exactly if every part of its type is thenable and its truth is judged somewhere: it is reached through parentheses and logical operands from the condition of an if, while, do, for, ?: or !, or from a binary expression (left operands of && and || only); no node twice unless a comma expression in parentheses. An argument is reported exactly if it returns a promise and more of the types considered for it return void before the first promise-returning one than return promises (so with no promise-returning one: exactly if some returns void; and with one: only if two or more void ones come first). Inherited members, properties, attributes, return values, assignments, variables exactly if a promise-returning function meets an expected void-returning one; spreads exactly of thenables. Each check runs exactly where it looks and exactly if its option is on.","every file with distinct nodes, every checker answer, every call with any overloads, every class, every option combination","a memo shared by all listeners decides what is checked in which mode; argument positions are two lists with duplicates","internal/rules/no_misused_promises/no_misused_promises.go: NoMisusedPromisesRule")
p("C97","no-unnecessary-type-assertion never overlooks an any or a type variable hidden in a type","Before it calls an assertion unnecessary the rule searches both types for `any` and for type variables: through union and intersection constituents, type arguments, and the parameters and results of call signatures. If the search answers no, nothing of the kind can be reached, whatever the size or the cycles of the type; if it answers yes, something of the kind occurs, or within a signature there is another instantiation of the same generic signature. The search ends with an answer if finitely many types can be reached, and also if infinitely many can but their signatures are instantiated from finitely many; the answer does not depend on anything but the type. Where there is no type, nothing is found.","all type graphs, finite or infinite, with cycles, shared parts and chains of instantiation","type graphs are unbounded, and infinite ones cannot be enumerated by tests","internal/rules/no_unnecessary_type_assertion/no_unnecessary_type_assertion.go: typeContains, containsAny, containsTypeVariable")
p("C98","no-unnecessary-type-assertion reports exactly the assertions that change nothing","A type assertion is reported as unnecessary exactly if it is not exempted by the options, does not change the type of the expression (the very same type; or T & {} for a T that is never null; or types assignable to each other with the same properties, readonly properties and type arguments, without `any`, `object`, index signatures or type variables hiding a difference, and not of a fresh literal), and, for literals, the literal type would be inferred anyway; as contextually unnecessary exactly if it does change the type but what receives the value accepts the original type, outside the places where the expected type does not count (inference of type arguments, overloads, unions of object types, destructuring, assignments in expressions, …); a chain of assertions is reported exactly if the innermost operand would do. There is exactly one verdict for each assertion, and it is always reached.","all syntax trees around an assertion, all types and answers of the checker, all options","the verdict depends on about thirty interacting conditions on unboundedly nested syntax (parentheses, calls, arrays, functions) and on type graphs; tests fix a few shapes","internal/rules/no_unnecessary_type_assertion/no_unnecessary_type_assertion.go: checkTypeAssertion, isTypeUnchanged, shouldSkipContextualTypeFallback, reportDoubleAssertionIfUnnecessary, isConstrainedTo")
p("C99","Fixes of no-unnecessary-type-assertion remove the assertion and keep the rest of the text","The fix for `x as T` removes the keyword, the type, white space before the keyword and between the two, and keeps comments; for `<T>x` exactly the text from `<` to `>`; for `x!` exactly `!`; for a chain of assertions the chain is replaced by the text of the innermost operand (in parentheses if it is an object literal and an arrow function's body); if a `/** … */` comes before the operand in the assertion, that comment and the white space after it is removed instead, and nothing else is. White space is that of ECMAScript. Where this breaks code (no-break spaces, words joined, parentheses lost, objects that become blocks, documentation comments removed in place of the assertion) is proved, too.","all source texts, all positions of operands, keywords, types and comments","texts are unbounded; fixes are byte-level edits that tests check on a few lines","internal/rules/no_unnecessary_type_assertion/no_unnecessary_type_assertion.go: buildAssertionFixes, reportUnnecessaryTypeAssertion, reportDoubleAssertionIfUnnecessary; internal/utils/utils.go: IsStrWhiteSpace, IsStringWhiteSpace")
p("C100","no-unnecessary-type-assertion reports exactly the non-null assertions that change nothing","`x!` is reported as unnecessary exactly if neither the type of x nor its constraint may be null, undefined, void, any or unknown, x! is no side of an assignment, and x is no variable that may be read before it is assigned (unknown declaration; a `var` used in a block outside of the one that declares it; declared with a type only and not narrowed, unless ambient); as contextually unnecessary exactly if it is assigned to, or x may be nullish and the type expected there includes undefined, null, void and unknown whenever the type of x does. The expected type is that of arguments, declarations, JSX expressions, template spans and right sides of `=`.","all types, declarations, scopes and parents","combinations of type constituents, nested scopes and parents are unbounded","internal/rules/no_unnecessary_type_assertion/no_unnecessary_type_assertion.go: isPossiblyUsedBeforeAssigned, isNullableForNonNullAssertion, KindNonNullExpression listener; internal/utils/ts_eslint.go: GetContextualType, GetConstrainedTypeAtLocation")
p("C101","prefer-nullish-coalescing reports exactly the tests for null and undefined it is configured for","A conditional expression is reported exactly if it yields a variable or property after testing that same expression (up to parentheses, one `!`, `?.` and the way a property name is written) for null and undefined - by its truth, or by one or two comparisons that tell all nullish values of its type - and the operands of the suggested `??` are the tested expression and the other branch; an if statement likewise, if all it does is assign to the tested expression; `||` and `||=` exactly if the left operand's type has null or undefined in it, has none of the primitives to ignore, is not in a test or Boolean() call when those are to be ignored, and is not connected with `&&` by `||` when mixed expressions are to be ignored; the search for those always ends.","all options, all expressions, all types of them, all chains of parents, all graphs of logical expressions","the forms of expressions, types, options and places combine without bound, and the search for mixed expressions runs over a graph of any size","internal/rules/prefer_nullish_coalescing/prefer_nullish_coalescing.go:areNodesSimilarMemberAccess","internal/rules/prefer_nullish_coalescing/prefer_nullish_coalescing.go:getOperatorAndNodesInsideTestExpression","internal/rules/prefer_nullish_coalescing/prefer_nullish_coalescing.go:PreferNullishCoalescingRule")
p("C102","The suggestions for conditional expressions and if statements keep the meaning","Whenever a reported conditional expression has a value, the suggested `left ?? right` has the same value, and whenever a reported if statement does not throw, the suggested `target ??= value` has the same effect - provided every comparison in the test is with null or undefined, a value tested for its truth is truthy unless nullish, values are of their types as far as null and undefined go, the assignment is plain, private names and `?.` in keys are not involved.  Without these conditions it does not hold: `x === x || x === null ? y : x`, `x['#b'] != null ? x.#b : y`, `if (x[y?.b] == null) x[y.b] = z` and `if (x == null) x += y` are reported and the suggestion changes what happens.","all reported conditional expressions and if statements, all values of variables and properties, all options and types","expressions nest without bound and the values are arbitrary","internal/rules/prefer_nullish_coalescing/prefer_nullish_coalescing.go:areNodesSimilarMemberAccess","internal/rules/prefer_nullish_coalescing/prefer_nullish_coalescing.go:shouldSkipDueToPartialNullishCheck","internal/rules/prefer_nullish_coalescing/prefer_nullish_coalescing.go:PreferNullishCoalescingRule")
p("C103","The suggestion for `||` yields a legal expression with the same value","Applying the suggestion to `l || r`, wherever it is in a logical expression, yields text that ECMAScript's grammar (which is shown to be unambiguous) parses as the same expression with `??` for that `||`, and whose value is the same whenever the value of `l` is nullish or truthy; `l ||= r` becomes `l ??= r`.  Two kinds of chains are exceptions: `a && b || c || d` becomes `a && (b ?? c) || d`, which has another value, and `a || b && c || d || e` becomes `a || (b && c ?? d) || e`, which is a syntax error.","all logical expressions of any depth with any text in between, every `||` in them, all values","logical expressions nest without bound; parentheses, precedence and values interact","internal/rules/prefer_nullish_coalescing/prefer_nullish_coalescing.go:checkAndFixWithPreferNullishOverOr")
p("C104","no-deprecated: which declaration is deprecated, and through which aliases","A symbol counts as deprecated exactly if one of its declarations does, and the reason shown is the joined text of the first @deprecated tag above the first such declaration (empty if there is none). For an imported or re-exported name the rule follows the immediate aliases one by one and shows the reason of the first deprecated symbol on the way; the final target counts only where the caller asks for it. The search finds nothing exactly if the chain has an end and nothing that counts is deprecated; it runs for ever exactly if the chain has no end and nothing on it is deprecated, so a name that two modules re-export from each other makes the linter hang.","all symbols, declarations, JSDoc comments, alias graphs (with or without cycles), chains of any length","chains of aliases of any length and any shape; non-termination cannot be observed by a finite test","internal/rules/no_deprecated/no_deprecated.go: getJsDocDeprecationFromNode, getJsDocDeprecation, searchForDeprecationInAliasesChain")
p("C105","no-deprecated: which names are reported","A name is reported exactly if it is not a declaration, not in an import, not in an export that is left out, not allowed, and what it stands for is deprecated: at a call, the declaration of the resolved signature (another overload never counts), or else the called value unless it is a function or method; in destructuring, the property of the type reached by following the outer property names from the initializer; in an object literal, the variable or the property; otherwise the symbol or an alias on the way to it. obj[key] and literal properties are reported exactly if the literal key names a deprecated property. In const { x: a = b } = o every identifier in the element is reported when x is deprecated, and in const { a = b } = o the local b is reported if o has a deprecated property called b.","all identifiers, call signatures, binding patterns nested to any depth, checkers","binding patterns nest to any depth and the answers combine symbols, types and positions without bound","internal/rules/no_deprecated/no_deprecated.go: getCallLikeNode, getCallLikeDeprecation, getBindingPatternSourceType, getDeprecationReason, isDeclaration, isInsideImport, checkIdentifier, checkElementAccessExpression, checkObjectLiteralPropertyDeprecation")
p("C106","no-unnecessary-condition: a condition reported as always truthy or falsy is","If the rule reports a condition as always truthy (falsy), then the reported expression evaluates to a truthy (falsy) value whatever values of their types its parts have, provided that object types contain only objects; for types without intersections it reports exactly the types all of whose values are truthy or all falsy. What is judged is the condition under any number of parentheses and !, and of && and || only the right side, to any depth; array elements are not judged unless noUncheckedIndexedAccess is on, nor any, unknown and type parameters. Loops are left out for the literals that the option allows. Array predicates are judged by the types that their signatures return. A value of type {} is reported as always truthy although it may be an empty string.","all types (unions and intersections nested to any depth), all expressions of !, && , || and parentheses, all values of the leaves, all options","types, expressions and values are unbounded; a test shows one type and one value","internal/rules/no_unnecessary_condition/no_unnecessary_condition.go:checkTypeCondition","internal/rules/no_unnecessary_condition/no_unnecessary_condition.go:isConditionalAlwaysNecessary","internal/rules/no_unnecessary_condition/no_unnecessary_condition.go:checkNode","internal/rules/no_unnecessary_condition/no_unnecessary_condition.go:checkIfLoopIsNecessaryConditional","internal/rules/no_unnecessary_condition/no_unnecessary_condition.go:normalizeAllowConstantLoopConditions","internal/rules/no_unnecessary_condition/no_unnecessary_condition.go:isAllowedConstantLiteral","internal/rules/no_unnecessary_condition/no_unnecessary_condition.go:checkPredicateFunction","internal/rules/no_unnecessary_condition/no_unnecessary_condition.go:resolveIndexedAccessType","internal/rules/no_unnecessary_condition/no_unnecessary_condition.go:getResolvedType")
p("C107","no-unnecessary-condition: ?? and comparisons that can never matter","The left side of ?? is reported as never nullish only if no value of its type is null or undefined, and as always nullish only if all are, for types without any, unknown, type variables and unresolved conditional types; a chain with an optional step right after an array element is never reported without noUncheckedIndexedAccess. A comparison with null or undefined is reported as having no overlap only if the two sides are never equal (loosely, for == and !=), and a comparison of two literals only if it always has the same outcome. Unresolved conditional types and intersections of type parameters are reported as never nullish although they may be; null | undefined is not reported; null < n is reported as a comparison without overlap although its outcome depends on n.","all types, chains of any length, operators, values","types and chains nest without bound, and the claims are about all values of a type","internal/rules/no_unnecessary_condition/no_unnecessary_condition.go:isNullishType","internal/rules/no_unnecessary_condition/no_unnecessary_condition.go:isAlwaysNullishType","internal/rules/no_unnecessary_condition/no_unnecessary_condition.go:checkNodeForNullish","internal/rules/no_unnecessary_condition/no_unnecessary_condition.go:hasOptionalChain","internal/rules/no_unnecessary_condition/no_unnecessary_condition.go:optionChainContainsOptionArrayIndex","internal/rules/no_unnecessary_condition/no_unnecessary_condition.go:toStaticValue","internal/rules/no_unnecessary_condition/no_unnecessary_condition.go:checkIfBoolExpressionIsNecessaryConditional","internal/rules/no_unnecessary_condition/no_unnecessary_condition.go:constrainIndexedAccessType")
p("C108","The code shown with a diagnostic is the right one","For a file whose lines around the diagnostic end with line feeds and are not all blank, the command-line printer never slices out of range; it shows the lines from one before the diagnostic to one after it, each with its number (all numbers equally wide), without the smallest indentation of the lines that are not blank and without white space at the end, and marks in them exactly what lies in the diagnostic's range (on later lines without the leading white space). If these are more than thirteen lines, no code is shown. Lines of a message are put below each other behind a gutter. A line that ends with a character of several bytes is cut inside that character; with a carriage return alone or U+2028 as line end, and if all the lines are blank, the printer panics.","all texts, line maps, ranges, messages of any length","texts and ranges are unbounded; off-by-one errors in byte arithmetic show up only for particular layouts","cmd/tsgolint/main.go: printDiagnostic")
p("C109","The command line lints the files it should and its exit code is about the run only","The command-line mode uses the given tsconfig.json (an error if it does not exist) or the one of the current directory (defaults if there is none); it lints exactly the files of the program below the current directory that are in no node_modules directory, each once, largest first, and --list-files prints exactly these. The exit code is 2 exactly for wrong flags, 0 for --help and for every run that comes to its end, whatever has been found, and 1 otherwise. A project that itself lies in a node_modules directory has no files to lint. The table of rule timings has a line per rule, in columns aligned if times are below 1000 s; the summary's plurals are right. No two built-in rules have the same name, so each is found by its name.","all flags, file systems, programs, findings, timings, and all of the 59 built-in rules","the combinations of flags, failures and file sets are unbounded","cmd/tsgolint/main.go: runMain, formatRuleTimingTable, allRules","cmd/tsgolint/main.go: allRulesByName")
p("C110","prefer-optional-chain relates expressions only if they are the same or one begins the other","Two expressions are taken for the same exactly if they are the same tree up to parentheses, non-null assertions, question marks, asserted types and white space, and contain nothing that is made anew each time; then they have the same value whenever both have one. One is taken for the beginning of the other exactly if it is the same as the other's object, that one's object, ...; if it is null or undefined the longer one throws or is undefined. Expressions with visible increments, assignments or yields, calls of a function by name, values made anew, and calls whose arguments differ in text are not related. Increments behind a non-null assertion or among arguments are not seen.","all expressions of any depth, all program states","expression trees and states are unbounded","internal/rules/prefer_optional_chain/prefer_optional_chain.go: areNodesStructurallyEqual, isNodePrefixOf, hasSideEffects, compareNodes, extractCallSignatures, containsOptionalChain")
p("C111","prefer-optional-chain takes the operands of && and || for what they test","The operands are those of the whole expression, in order, and their conjunction or disjunction is its value. An operand taken for a truth test, a negation, a comparison with null or undefined, or a typeof check is true exactly when its expression's value is so, in whichever order it is written. Other comparisons have a member access on one side only. A comparison ends an AND chain only if it is false of undefined for every value of the other side's type, an OR chain only if it is true of undefined. Missed: values of type parameters, and operators that are no comparisons (+, ??, =, the comma), count as safe.","all expressions, types and program states","expressions and values are unbounded","internal/rules/prefer_optional_chain/prefer_optional_chain.go: collectOperands, parseOperand, isSafeTrailingComparisonValue, isOrChainComparisonSafe, TypeInfo")
p("C112","prefer-optional-chain builds chains from operands that follow each other","The chains of an AND or OR expression are runs of its consecutive operands, in order and without overlap, each operand being about the same expression as the one before or one that begins with it; an OR expression has at most one chain. No chain contains an operand that is not a check, and a comparison with another value is its last operand, or its first. Only repeated truth tests are dropped from an AND chain's end. A run of truth tests and loose null comparisons of longer and longer expressions is one chain. Except at the first operand a chain may begin with any comparison, which the replacement then drops.","all operand lists, types and options","expressions and operand lists are unbounded","internal/rules/prefer_optional_chain/prefer_optional_chain.go: buildAndChains, buildOrChains, shouldStopAtStrictNullishCheck, tryMergeComplementaryPair, areNullishChecksConsistent, shouldAllowCallChainExtension")
p("C113","prefer-optional-chain takes an expression apart and puts it together with question marks only","Put together again, an expression has a ?. at every link that follows a checked expression, that had one, or that is the final call to be made optional, and is otherwise the same up to parentheses (and, in OR chains, the ! in front of the new question marks); with nothing checked it is the same text. There is no fix exactly if a private name would get a question mark. Leaving out the parentheses does not change a value. Two hazards: parentheses around operators are lost ((a ?? b).c becomes a ?? b?.c), and in OR chains a root that is no name and has a ! loses its last character.","all expressions and all sets of checked lengths","expressions are unbounded","internal/rules/prefer_optional_chain/prefer_optional_chain.go: flattenForFix, buildOptionalChain, ChainPart")
p("C114","prefer-optional-chain's replacement of an AND chain means what the chain meant","If the operands but the last are truth tests (of values that are truthy, null or undefined) and comparisons with null or undefined, each about the beginning of the last operand's access and written alike, and the root, keys and arguments of that access do not throw by themselves, then whenever the && expression has a value the new text is that of the same access with other question marks and !, and it has the same value if all guards let through; if one stopped, both are falsy and the new value is null or undefined. A comparison at the end is kept around the new access, with the same value where the guards let through and both falsy otherwise if comparing undefined with the other side is falsy; so is a final typeof check (without further condition), and so are the last two operands if they compare the same expression with null and with undefined, or if a strict comparison that is not complete is followed by a truth test: then the optional chain is in the first of the two and the second is unchanged. Which of these endings a chain has, and which links of the new access have a question mark, is exact. Hazards: a comparison in parentheses is lost, parentheses around the compared access are broken, a typeof guard beside other guards is lost.","all chains of any length, all expressions of the model and all states of the program (with lawful operators and no side effects)","chains, expressions and program states are unbounded","internal/rules/prefer_optional_chain/prefer_optional_chain.go: generateAndChainFixAndReport, buildOptionalChain, flattenForFix")
p("C115","prefer-optional-chain's replacement of an OR chain means what the chain meant","If the operands but the last are negations (of values that are truthy, null or undefined) and equalities with null or undefined, each about the beginning of the last operand's access, whose question marks the last one has too, and the root, keys and arguments of that access do not throw by themselves, then whenever the || expression has a value: a final negation is replaced by the negation of the same access with more question marks, with the same value if all guards let through and truthy like the old one if one stopped; a final comparison is kept with the new access on its left, with the same value where the guards let through, and both truthy otherwise, if comparing undefined with the other side is truthy (and the operator's sides can be swapped where they are); in chains of three or more, a truth test after a comparison with null or undefined of something shorter is kept unchanged behind the new comparison, with the same conclusion. Hazards: the sides of any operator are swapped, the other side is lost if the compared access is in parentheses or under typeof, and the guards' question marks are lost in chains of three.","all chains of any length, all expressions of the model and all states of the program (with lawful operators and no side effects)","chains, expressions and program states are unbounded","internal/rules/prefer_optional_chain/prefer_optional_chain.go: generateOrChainFixAndReport, buildOptionalChain, flattenForFix")
p("C116","prefer-optional-chain's replacement of (foo || {}).bar","`l || {}` and `l ?? {}` (with {} in at most one pair of parentheses) are reported just if they are, in at most one pair of parentheses, the object or the key of an access without ?., and with requireNullish the left side's type includes null or undefined; the report is a fix just with the option for unsafe fixes. For the object of an access the new text is that of the same access with ?. to the left side, in parentheses if that has an operator (except <T>x, satisfies and new without arguments). The new expression throws if the left side does; evaluates the same, `this` included, if the left side's value was used anyway; has the same value for null and undefined just if {} has no such member, and for other falsy values just if the member is that of {}.","all expressions, options, types, surroundings, and all worlds (values, members, operators)","The left side is any expression and its value any value; tests have a few shapes and never run the result.","internal/rules/prefer_optional_chain/prefer_optional_chain.go:handleEmptyObjectPattern","internal/utils/ts_api_utils.go:IsPropertyOrElementAccess")
p("C117","prefer-optional-chain reports and rewrites AND chains only where it is safe, without the unsafe option","A reported AND chain has two or more operands with the same root, one of them an access; a truth test at the beginning has no ?., is not void and obeys the options for single types; with requireNullish there is a comparison or an operand, not the last, that can be null or undefined. Without the option for unsafe fixes: no operand is x!; guards that are only strict comparisons cover both null and undefined, or just those that the first operand's type has (or the last operand has ?. or is != null); a comparison of a longer access at the end is with a value whose type makes it false for undefined, so that for all values of the types the new expression is truthy just when the old was and has the same value where the guards let through; a chain that ends in an access is rewritten by itself only if some operand's type admits undefined, any or unknown and it does not begin with an explicit comparison of a value of known type; the others are only suggested. With the option all are rewritten. Which chains are reported, and which rewrites are only suggested, is exact: just those candidates for which none of the listed reasons to pass over, or to ask, holds.","all chains of operands, options, assignments of types to expressions, and worlds whose values are of these types","Reports depend on the types, kinds and shapes of all operands at once; tests have single combinations and do not run the result.","internal/rules/prefer_optional_chain/prefer_optional_chain.go:validateChain","internal/rules/prefer_optional_chain/prefer_optional_chain.go:validateAndChainForReporting","internal/rules/prefer_optional_chain/prefer_optional_chain.go:hasIncompleteNullishCheck","internal/rules/prefer_optional_chain/prefer_optional_chain.go:isUnsafeTrailingComparison","internal/rules/prefer_optional_chain/prefer_optional_chain.go:generateAndChainFixAndReport")
p("C118","prefer-optional-chain reports OR chains only where it is safe, without the unsafe option, and rewrites or suggests them accordingly","What is reported of an OR chain is a beginning of it with two or more operands; all operands have the same root, one is an access and one is no truth test; with requireNullish the chain does not begin with a negation. Without the option for unsafe fixes: a chain that begins with a negation does not end in a comparison that can be false for undefined, so that for all values the new expression is truthy just when the old was and has the same value where the guards let through; after an equality with null or undefined every comparison is true for undefined or is such an equality itself; after typeof there are no truth tests and negations, and every comparison is true for undefined; no strict comparison of a value that can be null and undefined, any or unknown is followed by a negated access to it; tested operands are not of literal types without null or undefined. With the option the chain is reported whole and rewritten by itself; without, it is only suggested just in the stated cases. What is reported of which chain is exact: a candidate for which none of the listed reasons to pass it over holds, up to the first strict comparison with one of null and undefined of a value that can be both.","all chains of operands, options, assignments of types to expressions, and worlds","Reports depend on the types, kinds and shapes of all operands at once; tests have single combinations and do not run the result.","internal/rules/prefer_optional_chain/prefer_optional_chain.go:validateOrChainForReporting","internal/rules/prefer_optional_chain/prefer_optional_chain.go:validateOrChainNullishChecks","internal/rules/prefer_optional_chain/prefer_optional_chain.go:hasUnsafeStrictNullishGuardWithNegatedAccess","internal/rules/prefer_optional_chain/prefer_optional_chain.go:generateOrChainFixAndReport")
p("C119","prefer-optional-chain replaces the operands of the chain and nothing else","In an && or || expression without parentheses around operands, replacing the range of any operands that follow each other gives the text of the same expression with those operands replaced by one expression; with parentheses it does so whenever the operands are all that stand between two places with the same parentheses open. If the chain is the whole expression, the whole is replaced. The new expression's value is that of the operands before, the replacement and the operands after, joined; so if the replacement has the chain's value, or both are falsy (truthy for ||), the same holds for the whole expression, also where a typeof guard in front is kept. Together with C114 and C115: a rewritten part leaves the whole expression's value, or both are falsy (truthy).","all expressions, chains, replacements and worlds","Ranges and values must fit for every tree of operands; tests have short expressions and do not run the result.","internal/rules/prefer_optional_chain/prefer_optional_chain.go:collectOperands","internal/rules/prefer_optional_chain/prefer_optional_chain.go:generateAndChainFixAndReport","internal/rules/prefer_optional_chain/prefer_optional_chain.go:generateOrChainFixAndReport")
p("C120","no-unnecessary-condition: an optional chain that is reported is not needed","If no-unnecessary-condition reports a `?.`, then in every execution in which the checker's types are right, what is before it is neither null nor undefined whenever the `?.` is reached, so that with `.` in its place the program does the same. Which are reported is exact: `x?.` and `a.b?.` if no part of the type is nullish, any, unknown, a type variable or keyof; a second `?.` as in `e?.name?.`, `e?.[k]?.` with literal keys, `e?.()?.` if the property, the elements, the return types are not nullish in any part of the type of `e` (not counting that `e` itself may be); properties of index signatures only without noUncheckedIndexedAccess. `b[k]?.` is not judged without noUncheckedIndexedAccess, nor is a second `?.` after it, unless the key is a number in a tuple. The names in the message about literal keys are those of the properties' types, each once.","every chain of property accesses, element accesses, calls and parentheses, any types the checker may give, any execution","Tests try a few chains; that no `?.` is reported which stops a chain must hold for all types, unions and executions","internal/rules/no_unnecessary_condition/no_unnecessary_condition.go:checkOptionalChain","internal/rules/no_unnecessary_condition/no_unnecessary_condition.go:isOptionableExpression","internal/rules/no_unnecessary_condition/no_unnecessary_condition.go:isMemberExpressionNullableOriginFromObject","internal/rules/no_unnecessary_condition/no_unnecessary_condition.go:isCallExpressionNullableOriginFromCallee","internal/rules/no_unnecessary_condition/no_unnecessary_condition.go:getPropertyTypeFromBase","internal/rules/no_unnecessary_condition/no_unnecessary_condition.go:getCallReturnType","internal/rules/no_unnecessary_condition/no_unnecessary_condition.go:removeNullishFromType","internal/rules/no_unnecessary_condition/no_unnecessary_condition.go:isNullablePropertyType","internal/rules/no_unnecessary_condition/no_unnecessary_condition.go:isNullableMemberExpression")
p("C121","no-unnecessary-condition: calls of type guards","With checkTypePredicates, the call of a function with a predicate `x is T` or `asserts x is T` is reported exactly if the argument for `x` comes before any spread argument and its type already is T; the argument of `asserts x` is judged like the condition of an `if`. Predicates about `this` and calls whose argument is missing or after a spread are not judged.","every list of arguments, every predicate, every parameter index","Tests try a few calls; the position of spreads and the index of the parameter are arbitrary","internal/rules/no_unnecessary_condition/no_unnecessary_condition.go:checkTypePredicateCallExpression")
p("C122","prefer-optional-chain: each `&&` and `||` is judged once","prefer-optional-chain judges an `&&` or `||` expression together with all the operators of the same kind that are its operands, through parentheses. Taken over a whole file, every `&&` and `||` outside JSX is part of exactly one of the expressions judged: none is missed, none is judged twice, although the rule visits each operator and remembers positions only. Nothing inside JSX is judged.","every file: trees of expressions of any shape and depth, with parentheses and JSX anywhere","Tests try a few nestings; that the remembered ranges exactly cover the operators must hold for every shape of tree","internal/rules/prefer_optional_chain/prefer_optional_chain.go:processChain","internal/rules/prefer_optional_chain/prefer_optional_chain.go:collectOperands","internal/rules/prefer_optional_chain/prefer_optional_chain.go:isChainAlreadySeen","internal/rules/prefer_optional_chain/prefer_optional_chain.go:isInsideJSX")
F="internal/rule_tester/snapshot.go:"
p("C123","Snapshot files: natural order of the keys, one text","The keys of a snapshot file are compared in natural order: numbers in them by value whatever their length, then by how many digits they have, everything else by byte. This is a total order in which only equal keys are equal, so the file has each entry once, in this order, and its bytes depend on the entries only, not on the order in which Go lists the map or how the library sorts.","all keys, all sets of entries, every order of listing, every sorting algorithm","Tests compare a few keys; that the comparison is transitive and never a tie must hold for all triples of keys, and map order is random",F+"compareSnapshotKeys",F+"compareDigitRuns",F+"sortSnapshotKeys",F+"isASCIIDigit",F+"write")
p("C124","Snapshot files: what is written is read again","A snapshot file that was written and is read again has the same keys with the same contents, if the keys are as the tester makes them (in brackets, on one line), no line of a content ends in `---` and none ends in an empty line. (A content with a line that ends in `---` is cut off there.)","all sets of entries with such keys and contents","Tests have a few contents; that no other content is cut or merged must hold for all bytes",F+"parseSnapshotFile",F+"write",F+"load")
p("C125","Snapshot files: histories and schedules of tests","For each key the first content is kept until an update; without updates a call whose key has a content writes nothing and passes exactly if the content is the same. After any calls, in whatever order parallel tests get the lock, the file is the same byte for byte if the calls for each key come in the same order; a second run in a new process with the stored contents passes and does not change the file.","all histories of calls, with and without UPDATE_SNAPS, all schedules, any file at the start that can be stored again","Tests run one schedule; the property is about all interleavings and all sequences of runs",F+"matchSnapshot",F+"getFile",F+"load",F+"MatchSnapshot")
p("C126","prefer-string-starts-ends-with: static values of variables","Where prefer-string-starts-ends-with needs the value of an expression (a one-character string, the length of a string, null or undefined, a regular expression), it follows variables to their initialisers. The value it finds is that of the expression at the end of this way, and is the value of the expression in every execution as long as the variables on the way have their initial values. The search ends, in no more steps than there are variables, exactly if the way does not run into a circle; `var x = x; s[0] === x` makes the linter overflow its stack (finding), and variables that were assigned to since are not noticed (finding).","every expression, every set of variable declarations, every value of the variables","programs with circular initialisers and long chains are not in the tests; the property is about all of them","internal/rules/prefer_string_starts_ends_with/prefer_string_starts_ends_with.go:staticString","internal/rules/prefer_string_starts_ends_with/prefer_string_starts_ends_with.go:getNullishKind","internal/rules/prefer_string_starts_ends_with/prefer_string_starts_ends_with.go:parseRegExp")
p("C127","Rule tester: what a passing test says","A valid case passes exactly if the rule reports nothing; an invalid one exactly if its diagnostics are the expected ones in order (message, positions that are given, suggestions applied to the code of the case), the snapshot is the same, and the expected outputs are exactly the codes that linting and fixing again and again gives: with less than ten of them the last has nothing more to fix, with ten there may be more. Cases are skipped exactly if they are marked so, or if a case, valid or not, is marked Only and they are not; so without these marks a run without failures says all of this of all cases.","all rules, fixes and test cases","The tester is what the tests rely on; that it accepts nothing else must hold for all cases and rules","internal/rule_tester/rule_tester.go:RunRuleTester")
p("C128","strict-void-return looks at exactly the places where a function that returns nothing is wanted",
  "A complaint is made at a node exactly if some function stands there, where one that returns nothing is wanted, and there is something to complain about: a non-spread array element, the expression body of an arrow function, the right side of an assignment (compound ones included), the value of a JSX attribute, a property value or shorthand, a returned value or an initialiser whose contextual type is called for nothing; an argument of a call or `new` by its contextual type or by the signatures; a method of an object literal (its name not computed) whose contextual type has a property of that name called for nothing; a method with a body or an initialised property of a class, if some type the class extends or implements has a member of that name called for nothing. Names of class members are those the compiler resolves.",
  "all nodes, types, signatures, member names and heritage clauses","The combinations of places, names and contextual types are unbounded.",
  "internal/rules/strict_void_return/strict_void_return.go:StrictVoidReturnRule")
p("C129","no-unnecessary-template-expression: a template that is one string interpolation is replaced by it",
  "A template that is not tagged is replaced by its interpolation exactly if that is all there is in it, without comments, and every value of its type (or constraint) is a string; in a type, if it is moreover no type parameter and no enum member. The replacement is the text of the interpolation, in parentheses exactly if it is `||` or `&&` below `??` or the parent is an expression that binds at least as tight. It keeps the meaning of everything around, and the interpolation stays one operand if the parent is an expression, or accepts it without parentheses.",
  "all templates, surrounding programs of any depth, grammars and meanings","The surrounding expression can be any; tests try a few parents.",
  "internal/rules/no_unnecessary_template_expression/no_unnecessary_template_expression.go:reportSingleInterpolation","internal/rules/no_unnecessary_template_expression/no_unnecessary_template_expression.go:isTrivialInterpolation","internal/rules/no_unnecessary_template_expression/no_unnecessary_template_expression.go:isUnderlyingTypeString")
p("C130","Snapshot annotations mark exactly the bytes of the range",
  "In ASCII text without carriage returns, the marks below a shown line stand in exactly the columns of those bytes of that line which lie in the reported range, the blanks at its start left out; no other column is marked. Shown are, in order, exactly the lines from one before the first visible byte of the range to one after its end, tabs as four spaces; gutters have one width, so marks stand below what they mark. The heading names the first visible and the last position, from 1.",
  "all ASCII texts, ranges in them, markers and labels","Ranges and texts are unbounded; the snapshots show a few.",
  "internal/rule_tester/snapshot.go:renderSourceAnnotation","internal/rule_tester/snapshot.go:adjustForTabs","internal/rule_tester/snapshot.go:formatDiagnosticsSnapshot")
p("C131","prefer-string-starts-ends-with follows variables to what they stand for",
  "Texts, null and undefined, and regular expressions are recognised exactly if the operand is one, or a variable that stands for one through the initialisers of variables, however many; a call `r.test(x)` or `r[\"test\"](x)` is reported exactly if it has one argument and `r` stands for a literal or a `new RegExp` of string literals with an acceptable pattern, and is then true exactly for the strings that start (end) with the text passed on. Finding: a look-up never ends exactly if it comes to a variable whose initialiser leads back to it, which ends the run with a stack overflow; variables that are not constant are followed too.",
  "all programs (graphs of variables of any size, also circular), patterns, flags and strings","Chains of variables are unbounded, and a test of non-termination does not end.",
  "internal/rules/prefer_string_starts_ends_with/prefer_string_starts_ends_with.go:PreferStringStartsEndsWithRule,staticString,getNullishKind,parseRegExp,handleRegexTestCall")
p("C132","Comments of a range","Iterating over the comments of a range visits, in order and once each, exactly the comments that stand between the beginning of the range and the first token after it and begin before the end of the range, and it stops when the loop is left; the test for comments holds exactly if there is one. Comments behind the first token are not found (shown to be a hazard).","every text, position behind a token, range end and loop body","arbitrary mixtures of white space, line ends and comments","internal/utils/utils.go:GetCommentsInRange,HasCommentsInRange","internal/rules/switch_exhaustiveness_check/switch_exhaustiveness_check.go:getCommentDefaultCase")
p("C133","Type names in diagnostics are shown whole or cut at 120 characters","The labels of no-unnecessary-condition show the name of a type if it has at most 120 characters, otherwise its first 117 characters and three dots, so never more than 120 characters and never a part of a character; a value is labelled exactly if the expression is not a plain literal (possibly in parentheses), comparisons label both operands at their own ranges, type guards name value and predicate. Two types can be shown alike (shown).","every type name and expression","type names of any length and nesting of parentheses","internal/rules/no_unnecessary_condition/no_unnecessary_condition.go:truncateTypeNameForDiagnostic,isSelfExplanatoryLiteral,typeNameForNodeDiagnostic,buildTypedValueDiagnostic,buildComparisonDiagnostic")
p("C134","no-unnecessary-condition judges every tested expression exactly once","In every file the rule judges exactly the expressions whose truth decides a condition: the conditions of if, ?:, while, do and for (except the loop tests that the option allows), the left sides of &&, ||, &&= and ||=, arguments of functions that assert them, and, inside a tested expression, what stands in parentheses or after ! and the right side of && and ||, to any depth. None is judged twice, however conditions are nested; each is reported at the largest expression around it that it alone decides, and the verdict is turned round exactly for an odd number of !. The left sides of ?? and ??= are judged as nullish exactly once each.","all files (trees of nodes of any shape and depth) and all settings for loops","Nested conditions are reached both from the statement around them and from their own listener; that no expression is missed or reported twice for any nesting is a statement about all trees.","internal/rules/no_unnecessary_condition/no_unnecessary_condition.go:checkNode,checkLogicalExpressionForUnnecessaryConditionals,checkIfLoopIsNecessaryConditional,checkAssignmentExpression,checkNodeForNullish")
p("C135","no-duplicate-type-constituents examines every constituent exactly once","As long as nothing is a duplicate, exactly the constituents of unions (unless ignored) and of intersections (unless ignored) anywhere in a file are examined, each exactly once: a group in parentheses in a group of the same kind is examined with the outer group and not again on its own, a group inside anything else is examined on its own.","all files, all nestings of unions, intersections, parentheses and other types","Nested groups are reached both from the outer group and by their own listener; that none is missed or examined twice is a statement about all trees.","internal/rules/no_duplicate_type_constituents/no_duplicate_type_constituents.go:unwindedParentType,checkDuplicateRecursively,checkDuplicate")
p("C136","prefer-optional-chain: what it remembers about nodes does not change its answers","For every history of questions prefer-optional-chain asks about the nodes of a file (the parts of a type, the calls an expression begins with, whether there is a question mark in it, its parts), each is answered as if it were the first: the caches, which are filled on the way also for the parts of the node asked about, never change an answer. Only the parts of an expression that a replacement was made from may differ later, at the places written to, and never in number.","every file, every sequence of questions and writes","the caches are shared by all chains of a file and filled recursively; a test sees one order of questions","internal/rules/prefer_optional_chain/prefer_optional_chain.go:chainProcessor,getTypeInfo,extractCallSignatures,flattenForFix,containsOptionalChain")
p("C137","no-unnecessary-condition: the type taken for o[k] has every value o[k] can have","When the index k of o[k] is of a generic type, no-unnecessary-condition judges by the type of the property if k is one literal, else by the string index type if k may be a string and there is one, else by the number index type if k may be a number and there is one. If the keys are strings and numbers only, and where there is no string index numbers only, every value o[k] can have is of that type, so that a condition reported as always truthy or falsy is. With keys like 'a' | number and only a number index signature it is not: the report can be wrong.","every object and index type, every object and key","types, index signatures and constraints are unbounded; tests fix a few","internal/rules/no_unnecessary_condition/no_unnecessary_condition.go:NoUnnecessaryConditionRule")
p("C138","require-await: what removing async makes of the text, and when a semicolon takes its place","The suggestion of require-await removes `async` with the white space after it, unwraps the annotated return type Promise<T> (also globalThis.Promise<T>) of a function that is not a generator, renames AsyncGenerator to Generator for one that is, and changes nothing else. A semicolon takes the place of `async` exactly if the next token could go on with an expression, the function begins an expression statement or is a method or accessor, and the text before the function needs it; so what is left of a function without modifiers is not joined to an expression before it. With modifiers, or with a comment before the function, the semicolon can be in the wrong place, be a syntax error, or be missing.","every text, function, list of ancestors and of siblings, and annotated type","what stands before a function and what it is nested in is unbounded; tests fix a few sources","internal/rules/require_await/require_await.go:buildRemoveAsyncFixes,needsPrecedingSemicolon,previousSiblingIsMethodLike,isAtStartOfExpressionStatement,isTypeReferenceNamed,isMethodLike")
p("C139","Expressions copied into a replacement stay what they are","Where prefer-regexp-exec, no-unnecessary-type-conversion and no-unnecessary-boolean-literal-compare write a replacement from operands of the replaced expression, the new source is read (by the precedences of the language) as the intended expression in the place of the replaced one, with the operands intact, up to parentheses: the operands are put in parentheses unless they bind strongly, the result where its parent binds more strongly. Exceptions: `new C` without arguments before `.exec(…)` (becomes `new C.exec(…)`), and `… satisfies T` below typeof, void, delete or before `!`.","every operand and every surrounding expression, of any depth","operands and surroundings nest without bound; tests fix a few","internal/utils/ts_eslint.go:IsStrongPrecedenceNode","internal/rules/prefer_regexp_exec/prefer_regexp_exec.go:PreferRegexpExecRule","internal/rules/no_unnecessary_type_conversion/no_unnecessary_type_conversion.go:NoUnnecessaryTypeConversionRule","internal/rules/no_unnecessary_boolean_literal_compare/no_unnecessary_boolean_literal_compare.go:NoUnnecessaryBooleanLiteralCompareRule")
p("C140","no-misused-spread: each spread is checked exactly once","For every file: each spread that expands a value — an element `...x` of an array literal that is not a destructuring target, an argument of a call, a property of an object literal that is not a destructuring target, an attribute `{...x}` of a JSX element — is checked exactly once and with the check of its kind, wherever it stands outside the parts of a file no rule is called for; nothing else is checked; the rest elements of destructuring assignments are not taken for spreads. Exceptions: arguments of `new` are never checked; rest elements in the head of a `for` loop, or below a target with a default value, are taken for spreads; computed names in destructuring patterns are not looked at.","all syntax trees, all nestings of literals, patterns, calls, loops and spreads","tests have one spread per file; whether a literal is a value or a target depends on everything above it, at any depth","internal/rules/no_misused_spread/no_misused_spread.go:NoMisusedSpreadRule","internal/linter/linter.go:visitLintNodes")
p("C141","Diagnostics point to the construct they name","For every source text and every placing of white space and comments: of a loop the text `for (…)` is highlighted; of a function that is no arrow function the text from its first modifier that is no decorator (else from its first token) up to the `(` of its parameters; of `e as T` the text `as T`, of `<T>e` the text `<T>`, of `e!` the `!`; of a class member that could be readonly the text up to its name; of a parameter everything, of a parameter property all but its modifiers; white space and comments before a construct are not highlighted. Exceptions: the white space before the arrow of an arrow function (require-await), and decorators where there is no other modifier. An arrow function counts as one without parentheses just if it has none.","all source texts, positions of comments and white space, lists of modifiers","tests use one layout; the ranges are computed from several positions of the parser and scanner that coincide in simple layouts","internal/utils/ts_eslint.go:GetForStatementHeadLoc,GetFunctionHeadLoc,IsParenlessArrowFunction","internal/utils/utils.go:TrimNodeTextRange","internal/rules/no_unsafe_type_assertion/no_unsafe_type_assertion.go:getAssertionRange","internal/rules/prefer_readonly/prefer_readonly.go:getCustomReportNode","internal/rules/prefer_readonly_parameter_types/prefer_readonly_parameter_types.go:PreferReadonlyParameterTypesRule")
p("C142","What the parts of a fix do to a text","For every source text, node and inserted text: a text inserted before a node comes directly before its first token, so that white space and comments before the node stay before the text; one inserted after a node comes directly after it; replacing or removing a node leaves white space and comments before it, and everything else, as they are, while replacing or removing a range does just what it says. Texts inserted before and after one node enclose it, and a text inserted before a node that is also replaced comes first, whichever edit is given first. A report that may be fixed or only suggested carries its edits exactly once, as a fix or as one suggestion, and is made even if edits are not asked for.","all source texts, positions of comments and white space, nodes, inserted texts, orders of the two edits and fix settings","tests show single layouts; every fix of every rule is built from these parts","internal/rule/rule.go:RuleFixInsertBefore,RuleFixInsertAfter,RuleFixReplace,RuleFixReplaceRange,RuleFixRemove,RuleFixRemoveRange,ReportNodeWithFixesOrSuggestions")
p("C143","Which functions and parameters the rules about them check","In every file each function, method, signature, function type and class with type parameters is checked by no-unnecessary-type-parameters exactly once and described as what it is; interfaces, type aliases and everything else is not. Each function, method, constructor, signature and function type is checked by prefer-readonly-parameter-types exactly once; of its parameters just those are reported, in order and each once, whose type (the written one, else the inferred one) is neither readonly nor a branded literal, unless an option excludes parameter properties or parameters without a type; a parameter property is highlighted from its name on. Exceptions: parameters of setters and of constructor types are never reported.","all syntax trees, including assignment patterns, all lists of parameters, options and answers of the checker","the listeners are called by a traversal that treats patterns specially and a function can stand anywhere; tests show functions at a few places","internal/rules/no_unnecessary_type_parameters/no_unnecessary_type_parameters.go:NoUnnecessaryTypeParametersRule","internal/rules/prefer_readonly_parameter_types/prefer_readonly_parameter_types.go:PreferReadonlyParameterTypesRule,isParameterProperty,getParameterType")
open('/verif/properties.jsonl','w').write("".join(json.dumps(x)+"\n" for x in P))
print(len(P))
