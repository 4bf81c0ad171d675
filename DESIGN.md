# tsgolint in Lean 4 — design

(Generated by `tools/design.py` from `properties.jsonl`, `MANIFEST.json`, the Lean sources and `tools/design_notes.py`.)

`/verif/properties.jsonl` lists the properties (C01…); `/verif/MANIFEST.json` maps them to theorems.
The Lean project is `/verif/lean`:

* `Verif/Model/*.lean`  – the model of the Go code, function by function, each definition citing file:lines in /repo
  and saying where it simplifies;
* `Verif/Spec/*.lean`   – small independent specifications used in the statements;
* `Verif/Proof/*.lean`  – lemmas and invariants;
* `Verif/Props/*.lean`  – the property theorems, each followed by an `example` that meets its hypotheses.

`seeded/LOG.jsonl` records the wrong programs the theorems were tested against (`tools/mutate.py` applies each edit to a
scratch copy of the model, rebuilds, and logs which theorems fail).

## Trusted base

* Lean 4.33.0's kernel. Every theorem in the manifest depends at most on the axioms `propext`, `Classical.choice` and
  `Quot.sound` (checked with `#print axioms` for all of them: about half use all three, a third only `propext` and
  `Quot.sound`, the rest `propext` or nothing). No own axioms, no `native_decide`/`bv_decide`.
* The reading of the Go source into the model (the code was never run here). Each definition cites its source.
* Everything outside the repository is a parameter or an abstract step of the model, with assumed behaviour stated in
  the theorem's hypotheses: typescript-go (parser, scanner, checker, `tspath`, `tsoptions`, `project`, `collections`),
  go-json-experiment/json, regexp2, Go's runtime (channel, mutex, WaitGroup, map semantics), `bufio`, `flag`, `os`,
  `slices.SortFunc` (assumed only to return a sorted permutation — *not* assumed stable), IEEE arithmetic.
* Go `int` is modelled by `Int`/`Nat` (no overflow at 2^63) except where the property is about a fixed width
  (frame length: 32 bits, modelled exactly; listener kinds: bounded by 1000; int16 noted).
* Go panics are modelled by `Option.none`/`Except` results, never by a default value. Go functions that may fail to
  terminate are modelled with fuel: the theorems say that the answer does not depend on the fuel once it is reached, and
  either that enough fuel exists or (C65_diverges) that none does.

## Conventions of the model

* Types of the checked program are the elements of an arbitrary, possibly cyclic graph `T` with functions for flags,
  parts, symbols, type arguments, constraints, …: whatever typescript-go answers is covered. Hypotheses such as
  well-foundedness of "part of" are stated in each theorem.
* Syntax trees of rules are inductive types with the node kinds the rule distinguishes and an "other" constructor.
  Where parents matter, a context (zipper) type carries the path to the root.
* Rules driven by several listeners are run by `RuleTree.run` over the enter/exit events of a tree; C22/C53 connect
  that order with the traversal of `linter.go`.
* Texts are byte lists; fixes are `(text, pos, stop)` with `Int` positions and are applied by the modelled
  `ApplyRuleFixes` (`StableFix.AppliesTo`), not by an idealised editor.

## Plan per property

The middle column names the module group `X`: model in `Model/X`, specification in `Spec/X` (where the statement needs
one), proofs in `Proof/X` or in `Props/X`, theorems in `Props/X`.

| id | property | modules | how it is modelled and proved |
|----|----|----|----|
| C01 | Applying fixes equals performing the accepted edits simultaneously | `Fixer` | `ApplyRuleFixes` over bytes with `Int` positions; slicing returns `none` on panic; sorting is an arbitrary sorted-permutation function. Refinement of the loop to right-to-left splicing, induction over the sorted list. Hypothesis: no inverted fix range (pos <= end). Aliased fixes slices are not modelled. |
| C02 | Fixes of one diagnostic are applied all-or-nothing | `Fixer` | Same model; induction over the sorted list. |
| C03 | A diagnostic is dropped only because of a real overlap | `Fixer` | Same model. |
| C04 | ApplyRuleFixes never slices out of range on well-formed input | `Fixer` | Same model; slices out of range are `none`. |
| C05 | The result of applying fixes does not depend on report order | `Fixer` | Permutation uniqueness of sorted lists; negative witness for equal keys. The negative theorem shows the distinct-key hypothesis is needed. |
| C06 | Headless message framing is lossless | `Framing` | Bytes of `writeMessage`; decoder specification by well-founded recursion; round trip and prefix theorem by induction; wrap-around witness. json.Marshal is a parameter; write errors of the OS are not modelled. |
| C07 | On success stdout carries each diagnostic exactly once, then timing | `Pipeline` | Labelled transition system of main, workers, channel and buffered writer; inductive invariant over all reachable states, progress and a decreasing measure. Small-step model of all goroutines; what each file lint reports is a parameter. |
| C08 | Error path of the headless pipeline | `Pipeline` | Same transition system. The stronger guarantee (intact frames on the error path) is false of the code; two witness executions prove it. |
| C09 | V1 payloads mean the same as their V2 translation | `Payload` | JSON syntax tree; case analysis and list induction. The JSON library is modelled by its documented decoding rules. |
| C10 | Payload version dispatch | `Payload` | JSON syntax tree. Error message texts are modelled by kind only. |
| C11 | Each requested file is configured by the last config naming it and linted once | `Workload` | Induction over lists; map iteration orders are arbitrary permutations. That the program reports the source file under its normalised name is external. |
| C12 | Files are partitioned into programs without loss | `Workload` | Same model. |
| C13 | Parallel tsconfig lookup equals sequential lookup | `ResolverPool` | Transition system of the resolver workers; invariant, progress, measure. The single-file lookup is a pure parameter. |
| C14 | Breadth-first search | `Bfs` | Loop invariant; termination by the number of unvisited nodes. PreprocessLevel is not modelled (its only use changes nothing). |
| C15 | Tsconfig search is sound and complete | `FindTsconfig` | Rank on ancestors. typescript-go's config registry is a pure parameter; includes the finding that disableSolutionSearching is ignored. |
| C16 | Every file of a program is linted exactly once | `Pipeline` | Transition system of C07: multiset invariant on queues, workers and done files. Deadlock freedom and termination are C07_no_deadlock and C07_terminates on the same model. |
| C17 | No type checker is used by two workers at the same time | `Pipeline` | Same transition system. |
| C18 | Diagnostics are attributed to the rule and file that produced them | `Worker` | Worker loop with mutable context and listener registry, rules are arbitrary state machines; refinement to a stateless per-file specification. Rules are stateful parameters: a listener may answer according to its whole history in that file. |
| C19 | Linting one file does not influence the next | `Worker` | Same. |
| C20 | Rules do not influence each other | `Worker` | Same; permutation invariance. |
| C21 | Diagnostics of a file are produced in a deterministic order | `Worker` | Same. |
| C22 | Traversal is well nested and visits each node at most once | `Visit` | Structural induction on trees. Besides names of property assignments in patterns, JSDoc modifiers/types attached to an assignment are skipped too. |
| C23 | Listener kinds never collide | `Visit` | Arithmetic. Hypothesis: syntax kinds are below 1000 (typescript-go has a few hundred). |
| C24 | Timing mode does not change diagnostics | `Worker` | Same, timed variant of the loop. The clock is a parameter. |
| C25 | Timing totals are schedule independent | `Timing` | Commutativity and associativity of merging. |
| C26 | Fixes and suggestions appear only when requested | `Emit` | Case analysis. The JSON encoding itself is not modelled. |
| C27 | TypeScript diagnostics are only those requested and only for the file itself | `Run` | Case analysis. typescript-go's diagnostics are parameters. |
| C28 | An invalid tsconfig does not stop other programs | `Run` | Induction over programs. typescript-go (config parser, program) is a parameter. |
| C29 | Exit codes | `Headless` | Case analysis of the driver. Flag parsing, profiling and stdin are modelled by their outcomes. |
| C30 | Source overrides shadow the file system exactly | `Vfs` | Map reasoning. Includes the finding that override keys are not slash-normalised while lookups are. |
| C31 | Cached file reads are repeatable | `Vfs` | Histories and interleavings of reads. C31_race exhibits the interleaving in which two concurrent first reads differ. |
| C32 | A source file is shared by identity between programs | `Vfs` | Interleavings of first reads. |
| C33 | The in-memory overlay file system is coherent | `Vfs` | Map reasoning. |
| C34 | Quoted string literals denote the original text | `StringLiteral` | Induction on bytes and runes. |
| C35 | Collection helpers meet their specification | `Slices` | Induction on lists; Go slices with shared backing arrays for the aliasing statement. C35_filter_may_alias: Filter returns its input slice itself when nothing is dropped. |
| C36 | BoolOr options round trip | `Options` | Case analysis. The inner type's reader and writer are parameters. |
| C37 | Type-or-value specifiers round trip | `Specifier` | JSON syntax tree. |
| C38 | Type specifier matching | `Specifier` | Graph of types. typescript-go's declarations, file names and tspath are parameters. |
| C39 | Unsafe assignment check is correct on recursive types | `TypeGraph` | Graph reachability; the visited set is handled by an invariant (coinduction up to the visited pairs). Types are the elements of an arbitrary, possibly cyclic graph; typescript-go's flags and type arguments are functions on it. |
| C40 | any discrimination | `TypeGraph` | Same. C40_exact assumes that awaiting is complete (as getAwaitedType is); C40_condition_needed shows what happens otherwise. |
| C41 | Debug option parsing | `Headless` | Case analysis on strings. |
| C42 | consistent-return keeps functions apart | `ConsistentReturn` | Stack machine over enter/exit events refined to structural recursion. What the checker says about a return (undefined? void?) is part of the labels / a parameter. |
| C43 | require-await reports exactly async functions without await | `RequireAwait` | Scope stack refined to structural recursion. Thenable-ness and token positions are parameters. |
| C44 | return-await decision table | `ReturnAwait` | Decision table proved against an independent specification; fix texts through `AppliesTo`. Whether an expression is a promise and its precedence are parameters. |
| C45 | switch exhaustiveness is exact | `Switch` | Graph of types; set reasoning on constituents. Types are elements of an arbitrary graph; typescript-go's flags, names and case types are parameters. |
| C46 | no-mixed-enums is exact | `MixedEnums` | List induction on declarations. Includes the finding that an enum whose first declaration has no members panics the rule. |
| C47 | Template text escaping is lossless | `Template` | Escaping function against a reading relation of template bodies. C47_preserves excludes texts that end in \0 or a carriage return; C47_hazard_null and C47_hazard_cr show that the fixer does go wrong there (finding). |
| C48 | Duplicate type constituents are reported exactly | `Duplicates` | Unions/intersections as sets of values. C48_union and C48_intersection exclude groups with the type of something in them; C48_hazard shows the fixer losing values there (finding). Scanner tokens are parameters. |
| C49 | A successful run, end to end | `EndToEnd` | Composition of the previous models. Composition of the models of payload, workload, driver, worker, conversion and pipeline; typescript-go and JSON are parameters. |
| C50 | Rule options: given values win, missing ones get the documented default | `Options` | Tables generated from options.go and the schemas. Option tables and documented defaults are generated from the rules' options.go and schema files by tools/gen_options.py. |
| C51 | Builtin-likeness follows parts, constraints, own symbol and base types | `TypeGraph` | Recursive visitor with fuel; independence of fuel, totality under well-foundedness. Termination under well-foundedness of parts, constraints and base types. |
| C52 | Type names, call signatures, thenables and awaitability | `TypeGraph` | Graph of types. |
| C53 | Rules see a file as nested entries and exits | `RuleTree` | Event sequence of a tree is a well-nested word; rule machine lemma. |
| C54 | Removing comparisons with boolean literals keeps conditions | `BooleanCompare` | Decision function over types and operators; conditions evaluated in a small world of values before and after the fix; fix text through `AppliesTo`. The meaning theorems assume that the expression can only be boolean or nullish; the hazard theorems show what happens otherwise (findings). |
| C55 | startsWith/endsWith replacements keep the meaning | `StartsEnds` | Strings as lists of code units; each replaced form evaluated before and after for all strings. Proved outside the situations the hazard theorems show to go wrong (findings). Assumes variables keep their initial value, as the rule does. |
| C56 | includes replacements keep the meaning | `Includes`, `IncludesTest` | Regular expressions as a matching relation on strings; the literal reader of the code proved against it by induction on the pattern. C56_pattern is for harmless patterns (defined in the specification); the hazard theorems show accepted patterns and comparisons that are changed in meaning (findings). |
| C57 | dot-notation reports exactly the accesses meant and keeps the property | `DotNotation` | Decision table plus fix segments; the new text is read back as the same property name. Comments between the brackets are lost by the fix (C57_hazard_comment). |
| C58 | restrict-plus-operands is exact, and sound about run-time values | `PlusOperands` | Induction over type constituents; run-time kinds of values as a typing relation. Types, flags and constraints are the compiler's. C58_sound is about values of the kinds the flags describe; `object`, unconstrained type parameters and branded intersections have none of these flags and are not reported (finding). |
| C59 | strict-boolean-expressions checks each condition once and judges it exactly | `StrictBoolean` | Traversal with a set of visited nodes over enter events; decision table against a value semantics. C59_strict and C59_no_confusion exclude enums (and C59_no_confusion intersections): the hazard theorems show why (findings). |
| C60 | no-unsafe-enum-comparison is exact and its suggestion keeps the comparison | `EnumComparison` | Finite sets of enum symbols; the suggestion evaluated against the comparison. Types, symbols, constants and IEEE arithmetic are parameters. |
| C61 | Redundant constituents are redundant | `Redundant` | Types denote sets of values; redundancy is inclusion; list induction over constituents. Types of nodes come from the compiler. Hazards: texts repeated and swapped, (never \| string) & x, boolean behind a reference. |
| C62 | The memo of no-base-to-string does not change answers | `BaseToString` | Memo table as state; invariant that every entry is a final answer; negative witness for cycles. What the compiler says of types is a parameter. C62_hazard_order: with type A = [B, {}]; type B = [A] an expression of type B is reported or not depending on whether one of type A was checked before. |
| C63 | Floating promises are exactly the dropped ones | `Floating` | Recursive judgement on expressions against an inductive relation of handled promises. Hypothesis Spine excludes exactly the shapes for which the hazards show the claim false. C63_hazard_parens: `c ? (p.catch(f)) : q` is reported. |
| C64 | await-thenable reports exactly what is certainly no promise | `AwaitThenable` | Three-valued thenable judgement; decision table; fix segments. hazards: iterables that are no arrays are judged by their first type argument; removing await can join two lines |
| C65 | restrict-template-expressions judges every part of every type | `RestrictTemplate` | Recursion with fuel over type graphs; exactness for sufficient fuel, divergence theorem for cyclic arrays. finding: with allowArray a recursive array type makes the check recurse for ever (C65_diverges) |
| C66 | non-nullable-type-assertion-style reports exactly the assertions that only remove null | `NonNullable` | Sets of constituents with multiplicities removed; suggestion through `AppliesTo`. finding: for `<T>e` the suggestion keeps the assertion; ast.IsAssertionExpression is external and taken to be true of both kinds |
| C67 | related-getter-setter-pairs pairs accessors by name | `Accessors`, `AccessorNames` | Loop over members with a map; invariant relating the map to the members read so far. findings: static and instance accessors of the same name are paired with each other; quoted and unquoted names are not paired |
| C68 | no-array-delete reports and rewrites element deletions of arrays | `ArrayDelete` | Decision plus two edits; the new text is the call of splice with the same operands. findings: `delete a?.[i]` and comma expressions are rewritten wrongly |
| C69 | only errors are thrown and only errors reject promises | `Errors` | Decision tables over listeners; arguments found structurally. type predicates are parameters (C26, C27, C51, C52) |
| C70 | void, sort, for-in and unary minus are reported exactly for the types they are about | `SmallRules` | Decision tables over types. finding: unions of string arrays are reported although ignoreStringArrays is on |
| C71 | prefer-reduce-type-parameter only reports where dropping the assertion is safe | `SmallRules` | Decision and two edits; segments. finding: `as const` gives `reduce< const>` |
| C72 | promise-function-async reports exactly the functions that return promises without being async | `PromiseAsync`, `AsyncPlaces` | Decision table, any/all over signatures and constituents; position of the inserted keyword. promises are recognised by symbol name only |
| C73 | no-unnecessary-qualifier only removes qualifiers whose name resolves to the same symbol | `Qualifier` | Name resolution as scopes; the removed qualifier leaves the same symbol. finding: a parameter hiding an exported constant is overlooked |
| C74 | prefer-regexp-exec never rewrites a match with the global flag | `RegexpExec` | Flags and patterns as strings; matching with and without `g`. findings: empty patterns, escaped slashes, copies of global regular expressions |
| C75 | no-implied-eval reports exactly the global evaluators | `ImpliedEval` | Decision table over callees and arguments. finding: any call named bind passes for a function |
| C76 | no-unnecessary-type-arguments only drops an argument equal to its default | `TypeArguments` | Search from the last argument; the edit removes exactly one argument; specification function listing the declarations looked at. findings: defaults that are parameters of their own declaration; ordinary calls may be re-inferred; `extends` of an interface is looked at as a value |
| C77 | unbound-method reports exactly detached methods | `UnboundMethod`, `UnboundPatterns` | Recursion over parents against an inductive relation of safe uses. findings: panic on an unannotated this parameter; (a.m \|\| b)() counts as safe |
| C78 | no-confusing-void-expression reports exactly used void values | `VoidExpression` | Recursion over parents with an inductive specification of used positions. finding: the right operand of a comma is reported even if unused |
| C79 | prefer-find reports exactly first elements of filtered arrays and its suggestion keeps them | `PreferFind` | Lists as arrays; `find` and `filter` evaluated; edits through `AppliesTo`. findings: `?.at(0)` leaves a question mark, out-of-range numeric strings count as zero, holes |
| C80 | no-unsafe-member-access reports each unsafe access exactly once | `UnsafeAccess` | Memo of chain states; induction on the chain. finding: (x.a).b is reported twice where x.a.b is reported once |
| C81 | no-unsafe-call reports exactly the calls of values not known to be callable | `UnsafeAccess` | Decision table. IsBuiltinSymbolLike is C39/C40 machinery (TypeGraph) |
| C82 | no-unsafe-argument compares each argument with the parameter it is bound to | `UnsafeArgument` | Iterator over parameter types refined to the binding of arguments to parameters by position. IsUnsafeAssignment itself is C39; after a spread iterable (which the compiler accepts only for a rest parameter) positions are unknown |
| C83 | no-unsafe-return reports exactly unsafe returned values | `UnsafeReturn`, `ReturnPlaces` | Decision table; C39 for unsafe pairs. Finding: a promise of any returned by a function that is not async is never reported. |
| C84 | no-unsafe-assignment reports exactly assignments of any | `UnsafeAssignment`, `UnsafePlaces` | Mutual recursion over patterns and types against an inductive relation of positions; fuel. Findings: the object literal listener stops at a member initialised by an assignment; holes of array assignment patterns are reported. |
| C85 | no-unsafe-type-assertion reports exactly unsafe assertions | `TypeAssertion` | Decision over assignability answers. Relative to the checker's assignability; IsUnsafeAssignment is the modelled one (C39). |
| C86 | prefer-return-this-type reports exactly methods that return this | `ReturnThis`, `ReturnThisPlaces` | Recursive visitor over returns; specification by membership of return statements. Findings: values of unions with the class do not stop the report; properties whose value is a function in parentheses are not checked. |
| C87 | use-unknown-in-catch-callback-variable reports exactly callbacks that take the error as something other than unknown | `CatchCallback` | Decision table over parameter shapes; edits. Findings: panic on an empty tuple rest parameter; a `this` parameter is annotated instead of the error variable. |
| C88 | no-unnecessary-type-conversion reports exactly conversions of values already of the type, and they are harmless | `TypeConversion` | Decision per form; values before and after the removal. Findings: ~~ on literals beyond 32 bits is reported; removal may join words or make the next statement conditional. |
| C89 | no-useless-default-assignment reports exactly defaults whose type excludes undefined, and they are never used | `DefaultAssignment` | Decision per binding position; run-time binding of patterns. Findings: computed keys, rest tuples, defaults in between over arrays, void, `this`, patterns losing their optionality. |
| C90 | consistent-type-exports reports exactly value exports of types and its fix keeps every export | `TypeExports` | Grouping of specifiers; export lists before and after the fix are equal. Findings: the fix drops specifiers that are not resolved; `export*` becomes `exporttype *`. |
| C91 | no-misused-spread reports exactly spreads of the listed kinds | `MisusedSpread` | Recursive type search as reachability. Findings: Object.fromEntries is suggested for WeakMap; `return{...m}` is joined. |
| C92 | strict-void-return complains exactly about values returned where nothing is wanted | `VoidReturn` | Walk over statements against a membership relation of return statements. The walk over return statements is proved exact for all trees. |
| C93 | prefer-readonly-parameter-types: exact reachability of writable parts, termination | `ReadonlyParam` | Graph reachability with a seen set; termination by unvisited types, divergence witness. Finding: `type T = readonly T[]` overflows the stack. |
| C94 | prefer-readonly: exactly the never-written private properties, in order, with a harmless fix | `PreferReadonly` | Scope stack over events refined to a specification on the tree; set of written members. Findings: some forms of writing are not noticed; see FINDINGS. |
| C95 | no-unnecessary-type-parameters: the bounded, early-ending count is exact up to two; reports; removal | `TypeParameters` | Bounded counter with early exit refined to an unbounded count. The second half of C95_counts and C95_reports supposes a single default; C95_hazard_default shows why. |
| C96 | no-misused-promises reports exactly the misused promises | `MisusedPromises` | Decision tables for each of the places; specification relation of places. labels of diagnostics not modelled; checker answers are parameters |
| C97 | no-unnecessary-type-assertion never overlooks an any or a type variable hidden in a type | `TypeContains` | Graph search with visited set; soundness by reachability. The checker's answers (parts, arguments, signatures, targets) are parameters. C97_cautious: `true` can be given though nothing occurs (recursive generics). |
| C98 | no-unnecessary-type-assertion reports exactly the assertions that change nothing | `UnnecessaryAssertion` | Decision order against an independent disjunction of reasons. The checker's answers (types, contextual types, assignability, signatures) are parameters; containsAny/containsTypeVariable are those of C97.  `Proper`: the compiler's lists of properties and of constituents have no duplicates. |
| C99 | Fixes of no-unnecessary-type-assertion remove the assertion and keep the rest of the text | `AssertionFix` | Edits through `AppliesTo`; tokens before and after. Positions of nodes and tokens (parser, scanner) and Go's UTF-8 decoding are parameters. C99_glue* , C99_block and C99_parentheses are counterexamples (findings). |
| C100 | no-unnecessary-type-assertion reports exactly the non-null assertions that change nothing | `NonNull` | Decision; values of the union without null and undefined. The checker's answers are parameters; C100_safe assumes that IsNullableType recognises unions with null or undefined. |
| C101 | prefer-nullish-coalescing reports exactly the tests for null and undefined it is configured for | `Nullish` | Sets of constituents and options; decision per form. the types and their parts, the parents of an expression, ast.IsLogicalExpression and ast.IsOptionalChain are given |
| C102 | The suggestions for conditional expressions and if statements keep the meaning | `NullishMeaning` | Evaluation in a world of values, both branches. evaluation is a given world of values: variables, properties and other operators are arbitrary, reading has no side effects |
| C103 | The suggestion for `\|\|` yields a legal expression with the same value | `NullishFix` | Grammar of mixed logical operators; the new text parses (`NullishParse`) and evaluates the same. expressions other than `\|\|`, `&&`, `??`, `!` and parentheses are atoms; evaluating them has no side effects |
| C104 | no-deprecated: which declaration is deprecated, and through which aliases | `Deprecated` | Alias chains as paths; fuel-free relation and terminating search. The checker's answers (aliases, declarations, JSDoc) are given; what GetAliasedSymbol returns is assumed not to be an alias itself. |
| C105 | no-deprecated: which names are reported | `ConditionChain`, `Deprecated`, `Condition` | Decision table over the kinds of name positions. Whether a name is allowed by the option is a parameter here; the specifier matching itself is the subject of other claims. |
| C106 | no-unnecessary-condition: a condition reported as always truthy or falsy is | `Condition` | Types as sets of values; judgement against truthiness of all values. Types of expressions, index types and constraints come from the checker. Exactness is for types without intersections; for intersections the exact condition is intersection_iff. |
| C107 | no-unnecessary-condition: ?? and comparisons that can never matter | `Condition` | Sets of values; constant comparisons. Types of expressions come from the checker. Which member expressions are nullable (isNullableMemberExpression) is a parameter here. |
| C108 | The code shown with a diagnostic is the right one | `CodeBox` | Lines of a byte text; loop invariants on the printed window; arithmetic on columns. Line maps, the decoding of UTF-8, unicode.IsSpace and the scanner's GetECMAEndLinePosition are parameters; colours and the header line are not modelled. The text has less than 2^62 bytes. |
| C109 | The command line lints the files it should and its exit code is about the run only | `Cli` | Driver as a function of an environment; case analysis and list induction. Parsing of flags, path resolution, the file system, the creation of the program and linting (see C01-C03, C53-C54) are parameters of the environment; tracing and profiling only as success or failure. Text is a list of characters, the cells of the table are ASCII. |
| C110 | prefer-optional-chain relates expressions only if they are the same or one begins the other | `OptionalExpr`, `Condition` | Structural comparison of expressions; evaluation in a world. Evaluation is in a world without effects, so that an expression has the same value each time; trivia inside expressions is not modelled. |
| C111 | prefer-optional-chain takes the operands of && and \|\| for what they test | `OptionalOperand`, `Deprecated` | Operand classification against evaluation of the operand. Equality with null and undefined is JavaScript's, without document.all; types are the parts of their union. |
| C112 | prefer-optional-chain builds chains from operands that follow each other | `OptionalChains` | Loop over operands; invariant that the chain is a chain of prefixes. Types are parameters, as the parts of their union. |
| C113 | prefer-optional-chain takes an expression apart and puts it together with question marks only | `OptionalFix` | Flattening and printing are inverse, by structural induction. Texts are without trivia. |
| C114 | prefer-optional-chain's replacement of an AND chain means what the chain meant | `OptionalCode`, `OptionalEnding` | Composition of 110–113; evaluation of chain and replacement. Texts are without trivia. |
| C115 | prefer-optional-chain's replacement of an OR chain means what the chain meant | `OptionalOr`, `OptionalOrEnding` | Same for `\|\|`. Texts are without trivia; a final typeof check loses its other side (finding other_side_lost). |
| C116 | prefer-optional-chain's replacement of (foo \|\| {}).bar | `OptionalEmpty` | Same for the empty object form. Texts are without trivia. |
| C117 | prefer-optional-chain reports and rewrites AND chains only where it is safe, without the unsafe option | `OptionalReport`, `OptionalReportExact` | Guards of the report function; safety is equality of values. Safety of the end is for the equality operators: other operators count as safe (findings assignment_dropped, addition_kept). |
| C118 | prefer-optional-chain reports OR chains only where it is safe, without the unsafe option, and rewrites or suggests them accordingly | `OptionalOrReport`, `OptionalOrReportExact` | Same for `\|\|`. The meaning is preserved for chains that begin with a negation; for those that begin with an equality it is not (findings loose_then_null, cut_unguarded, undefined_then_null). |
| C119 | prefer-optional-chain replaces the operands of the chain and nothing else | `OptionalRange` | Ranges of operands as segments of the text. With parentheses around operands the range can begin outside and end inside them (finding range_broken). |
| C120 | no-unnecessary-condition: an optional chain that is reported is not needed | `ConditionChain`, `ConditionChainExact` | Typing relation between world and checker answers; induction on the chain. The types of the checker are parameters, right about the execution (structure Agrees): values are of their types, properties and calls of every part of a union are typed, unions are flat, no unresolved conditional types; operands of an unconstrained type parameter's type are excluded. Private names looked up through an index signature are not covered by Agrees (finding). |
| C121 | no-unnecessary-condition: calls of type guards | `ConditionChain` | Search for the argument of the predicate; decision. Resolved signatures, predicates and types of arguments are parameters; checkNode is C106. |
| C122 | prefer-optional-chain: each `&&` and `\|\|` is judged once | `MisusedPromises`, `OptionalVisit` | Seen set keyed by ranges over a traversal; ranges of distinct nodes differ. Trees are tokens, parentheses, logical operators and other nodes with children in the order of the text; their ranges are computed from the lengths of the tokens. |
| C123 | Snapshot files: natural order of the keys, one text | `Snapshot`, `SnapshotFile` | Comparison of keys is a total preorder; sorted permutations are unique. sort.Slice is any function that returns an ordered permutation. |
| C124 | Snapshot files: what is written is read again | `SnapshotFile` | Writer and parser are inverse; induction on lines. Errors of the file system are not modelled. |
| C125 | Snapshot files: histories and schedules of tests | `SnapshotFile` | State machine of calls; any interleaving gives the same file. The mutexes make each call one step; crashes while the file is written and other processes are not modelled. |
| C126 | prefer-string-starts-ends-with: static values of variables | `ReadonlyParam`, `StaticValue` | Search with fuel over scopes; exact relation of static values. The three searches are instances of one function, with fuel; that Go's stack overflows on an endless recursion is not part of the model. |
| C127 | Rule tester: what a passing test says | `RuleTester` | Tester as a function of the linter; pass iff the specification of a test case. Programs are made without errors; the linter is a function of the code; the testing package (failures, FailNow) is modelled by the result of the case. |
| C128 | strict-void-return looks at exactly the places where a function that returns nothing is wanted | `VoidContext` | Listeners and the C92 judgement over a tree of places. Extends C92 to the listeners; contextual types, symbols and signatures are the compiler's. |
| C129 | no-unnecessary-template-expression: a template that is one string interpolation is replaced by it | `TemplateSingle` | Precedence and parent table; the new text reads as the same expression. The precedence table and the grammar are parameters; the law assumed of the grammar is stated. Hazards: parents that are no expressions (initialisers with a comma expression, array types of unions), templates glued to a keyword. |
| C130 | Snapshot annotations mark exactly the bytes of the range | `Annotate` | Loop over lines; every marked byte characterised. The scanner's positions are a parameter, assumed to count bytes (as it does in ASCII text without carriage returns); the hazard shows what happens otherwise. |
| C131 | prefer-string-starts-ends-with follows variables to what they stand for | `StartsEndsFollow` | Graph of nodes; visited set; relation of following variables. Expressions are nodes of an arbitrary graph; regular expression literals are assumed well written. Findings: endless recursion on circular initialisers; `let` variables are followed. |
| C132 | Comments of a range | `Comments` | Scanner over bytes; comments as segments of the text. The two comment scanners of typescript-go are part of the model (their source is not in the repository); positions other than the beginning of the file. |
| C133 | Type names in diagnostics are shown whole or cut at 120 characters | `TypeNames` | Truncation on UTF-8 bytes at a character boundary. Names of types are given by the checker, as valid UTF-8. |
| C134 | no-unnecessary-condition judges every tested expression exactly once | `ConditionPlaces` | Paths into a tree; the list of judged paths is duplicate-free and its members are characterised. Which tests of loops are exempt is a parameter (C106); which arguments are asserted too (C121). |
| C135 | no-duplicate-type-constituents examines every constituent exactly once | `GroupPlaces` | Same technique for nested unions and intersections. What happens with duplicates and types that cannot be resolved is C48. |
| C136 | prefer-optional-chain: what it remembers about nodes does not change its answers | `OptionalMemo` | Caches as state; invariant that every entry is the fresh answer (lengths and unwritten places for slices), by induction over histories. Nodes are addresses; the checker's answers are a function of the node. C136_shared: slices in the cache are written to in place, so that a later reader sees the change; by C112 and C122 no other chain reads them. |
| C137 | no-unnecessary-condition: the type taken for o[k] has every value o[k] can have | `AccessType` | Object and index types with a semantics of values and keys; soundness from stated laws of the checker; counterexample world. The checker's answers are parameters, right about the values (structure Agrees). Finding: keys 'a' \| number with a number index signature only. |
| C138 | require-await: what removing async makes of the text, and when a semicolon takes its place | `RemoveAsync` | Model/RemoveAsync: the loop over siblings, the walk over ancestors with the same start, the token after async, the name of the annotated type; the edits come from Model/RequireAwait. C138_text builds the text from segments (Proof/StableFix) and shows that the edits, in the order the code gives them, are a shuffle of the segments edits. C138_decides characterises the semicolon by the last character that is not blank; C138_separate says why that is enough; three hazard theorems show where it is not. Scanner positions and the token after async are parameters. Findings: semicolon written after the modifiers, in an object literal after a comment, missing after a comment that ends with a semicolon. |
| C139 | Expressions copied into a replacement stay what they are | `Wrapping` | Spec/Expression has trees, how they are written, a precedence parser with fuel and surroundings as lists of frames. Proof/Expression shows by induction over trees that everything the grammar writes is read as it was meant, whatever follows it (so in one way only). Model/Wrapping has the tables of kinds (strong operands, parents that bind strongly) and the replacement texts. The properties follow by showing that the tree meant is in the grammar: replacing an operand by one that binds at least as strong keeps a tree in the grammar (plug_mono). Grammar and parser are a specification on tokens (Spec/Expression); optional chains, ** and the ban on mixing ?? are left out. Findings: new C without arguments; satisfies below typeof, void, delete and before !. |
| C140 | no-misused-spread: each spread is checked exactly once | `SpreadPlaces` | Model/SpreadPlaces runs the listeners of no-misused-spread over the events of the traversal model (Model/Visit, C22). The specification gives every node the role ECMAScript gives it (target of an assignment or value), independently of the traversal, and says which children expand. By induction over roles, every value role is reached by the traversal as a value or lies in a skipped part; with C22_events_of_node each spread is then checked exactly once. Nodes are told apart by pointers; C140 also shows that distinct ids always have such an assignment of pointers. Findings: arguments of new; heads of for loops; nested patterns with a default value; computed names in patterns. |
| C141 | Diagnostics point to the construct they name | `Highlights` | Model/Highlights has the functions that compute ranges from positions. The specification lays a construct out as a concatenation of texts (before, white space and comments, tokens, after), from which the positions of parser and scanner follow; the theorems say which part of the text the range selects, for all texts. Positions of the parser and the tokens of the scanner are given by the layout of the text (Reads). Findings: white space before the arrow; decorators without another modifier. |
| C142 | What the parts of a fix do to a text | `FixParts` | Nodes are given by their places, as for C141, and the first token of a node by Reads. That the edits turn one text into the other is AppliesTo, the semantics of C28 and C139, by segments. For reports the effects of the reporting functions (C26) are used. The first token of a node is what the scanner reads (Reads). |
| C143 | Which functions and parameters the rules about them check | `FunctionKinds` | The tables of listeners are looked up by kind for the events of the traversal (C22), so that the claim is about files. Numbers of kinds are a parameter: different, and below 1000. Types and what is asked about them are parameters; that readonly is decided rightly is C93. Uses C22 (each node is visited once). Finding: parameters of setters are not checked (C143_hazard_setter). |

Every property in the list can be expressed in the model; none is `not_applicable`.

## Which source files are modelled

"cited in" lists the model modules whose definitions cite the file. What is left out of a file is said at the definitions
and summarised under "Not modelled".

| file | cited in |
|----|----|
| `cmd/tsgolint/headless.go` | Emit, Framing, Headless, Pipeline, Sorter, Timing, Vfs, Workload |
| `cmd/tsgolint/main.go` | Cli, CodeBox, Headless, RuleNames |
| `cmd/tsgolint/overlayfs.go` | Vfs |
| `cmd/tsgolint/payload.go` | Payload |
| `internal/diagnostic/diagnostic.go` | Emit |
| `internal/linter/linter.go` | Headless, Pipeline, Report, RuleTree, Run, Visit, Worker, Workload |
| `internal/linter/source_code_fixer.go` | Fixer, Sorter |
| `internal/linter/timing.go` | Sorter, Timing, Worker |
| `internal/rule/rule.go` | Emit, FixParts, Fixer, Report, RuleTree, Visit |
| `internal/rule_tester/rule_tester.go` | RuleTester |
| `internal/rule_tester/snapshot.go` | Annotate, Snapshot |
| `internal/rules/await_thenable/await_thenable.go` | AwaitThenable |
| `internal/rules/consistent_return/consistent_return.go` | ConsistentReturn |
| `internal/rules/consistent_type_exports/consistent_type_exports.go` | TypeExports |
| `internal/rules/dot_notation/dot_notation.go` | DotNotation |
| `internal/rules/no_array_delete/no_array_delete.go` | ArrayDelete |
| `internal/rules/no_base_to_string/no_base_to_string.go` | BaseToString |
| `internal/rules/no_confusing_void_expression/no_confusing_void_expression.go` | VoidExpression |
| `internal/rules/no_deprecated/no_deprecated.go` | Deprecated |
| `internal/rules/no_duplicate_type_constituents/no_duplicate_type_constituents.go` | Duplicates, GroupPlaces |
| `internal/rules/no_floating_promises/no_floating_promises.go` | Floating |
| `internal/rules/no_for_in_array/no_for_in_array.go` | SmallRules |
| `internal/rules/no_implied_eval/no_implied_eval.go` | ImpliedEval |
| `internal/rules/no_meaningless_void_operator/no_meaningless_void_operator.go` | SmallRules |
| `internal/rules/no_misused_promises/no_misused_promises.go` | Highlights, MisusedPromises, Options |
| `internal/rules/no_misused_spread/no_misused_spread.go` | MisusedSpread, SpreadPlaces |
| `internal/rules/no_mixed_enums/no_mixed_enums.go` | MixedEnums |
| `internal/rules/no_redundant_type_constituents/no_redundant_type_constituents.go` | Redundant |
| `internal/rules/no_unnecessary_boolean_literal_compare/no_unnecessary_boolean_literal_compare.go` | BooleanCompare, Wrapping |
| `internal/rules/no_unnecessary_condition/no_unnecessary_condition.go` | AccessType, Condition, ConditionChain, ConditionPlaces, TypeNames |
| `internal/rules/no_unnecessary_qualifier/no_unnecessary_qualifier.go` | Qualifier |
| `internal/rules/no_unnecessary_template_expression/no_unnecessary_template_expression.go` | Template, TemplateSingle |
| `internal/rules/no_unnecessary_type_arguments/no_unnecessary_type_arguments.go` | TypeArguments |
| `internal/rules/no_unnecessary_type_assertion/no_unnecessary_type_assertion.go` | AssertionFix, Highlights, NonNull, TypeContains, UnnecessaryAssertion |
| `internal/rules/no_unnecessary_type_conversion/no_unnecessary_type_conversion.go` | TypeConversion, Wrapping |
| `internal/rules/no_unnecessary_type_parameters/no_unnecessary_type_parameters.go` | FunctionKinds, TypeParameters |
| `internal/rules/no_unsafe_argument/no_unsafe_argument.go` | UnsafeArgument |
| `internal/rules/no_unsafe_assignment/no_unsafe_assignment.go` | UnsafeAssignment, UnsafePlaces |
| `internal/rules/no_unsafe_call/no_unsafe_call.go` | UnsafeAccess |
| `internal/rules/no_unsafe_enum_comparison/no_unsafe_enum_comparison.go` | EnumComparison |
| `internal/rules/no_unsafe_enum_comparison/static_value.go` | EnumComparison |
| `internal/rules/no_unsafe_enum_comparison/suggestion.go` | EnumComparison |
| `internal/rules/no_unsafe_member_access/no_unsafe_member_access.go` | UnsafeAccess |
| `internal/rules/no_unsafe_return/no_unsafe_return.go` | ReturnPlaces, UnsafeReturn |
| `internal/rules/no_unsafe_type_assertion/no_unsafe_type_assertion.go` | Highlights, TypeAssertion |
| `internal/rules/no_unsafe_unary_minus/no_unsafe_unary_minus.go` | SmallRules |
| `internal/rules/no_useless_default_assignment/no_useless_default_assignment.go` | DefaultAssignment |
| `internal/rules/non_nullable_type_assertion_style/non_nullable_type_assertion_style.go` | NonNullable |
| `internal/rules/only_throw_error/only_throw_error.go` | Errors |
| `internal/rules/prefer_find/prefer_find.go` | PreferFind |
| `internal/rules/prefer_includes/prefer_includes.go` | Includes, IncludesTest |
| `internal/rules/prefer_nullish_coalescing/prefer_nullish_coalescing.go` | Nullish, NullishFix |
| `internal/rules/prefer_optional_chain/prefer_optional_chain.go` | OptionalChains, OptionalCode, OptionalEmpty, OptionalExpr, OptionalFix, OptionalMemo, OptionalOperand, OptionalOrReport, OptionalRange, OptionalReport, OptionalVisit |
| `internal/rules/prefer_promise_reject_errors/prefer_promise_reject_errors.go` | Errors |
| `internal/rules/prefer_readonly/prefer_readonly.go` | Highlights, PreferReadonly |
| `internal/rules/prefer_readonly_parameter_types/prefer_readonly_parameter_types.go` | FunctionKinds, Highlights, ReadonlyParam |
| `internal/rules/prefer_reduce_type_parameter/prefer_reduce_type_parameter.go` | SmallRules |
| `internal/rules/prefer_regexp_exec/prefer_regexp_exec.go` | RegexpExec, Wrapping |
| `internal/rules/prefer_return_this_type/prefer_return_this_type.go` | ReturnThis, ReturnThisPlaces |
| `internal/rules/prefer_string_starts_ends_with/prefer_string_starts_ends_with.go` | StartsEnds, StartsEndsFollow, StaticValue |
| `internal/rules/promise_function_async/promise_function_async.go` | AsyncPlaces, PromiseAsync |
| `internal/rules/related_getter_setter_pairs/related_getter_setter_pairs.go` | Accessors |
| `internal/rules/require_array_sort_compare/require_array_sort_compare.go` | SmallRules |
| `internal/rules/require_await/require_await.go` | RemoveAsync, RequireAwait |
| `internal/rules/restrict_plus_operands/restrict_plus_operands.go` | PlusOperands |
| `internal/rules/restrict_template_expressions/restrict_template_expressions.go` | RestrictTemplate |
| `internal/rules/return_await/return_await.go` | ReturnAwait |
| `internal/rules/strict_boolean_expressions/strict_boolean_expressions.go` | StrictBoolean |
| `internal/rules/strict_void_return/strict_void_return.go` | VoidContext, VoidReturn |
| `internal/rules/switch_exhaustiveness_check/switch_exhaustiveness_check.go` | Switch |
| `internal/rules/unbound_method/unbound_method.go` | UnboundMethod, UnboundPatterns |
| `internal/rules/use_unknown_in_catch_callback_variable/use_unknown_in_catch_callback_variable.go` | CatchCallback |
| `internal/utils/base_type_utils.go` | TypeGraph |
| `internal/utils/bfs.go` | Bfs |
| `internal/utils/builtin_symbol_likes.go` | Errors, Specifier, TypeGraph |
| `internal/utils/create_program.go` | Run |
| `internal/utils/find_tsconfig.go` | Bfs, FindTsconfig, ResolverPool |
| `internal/utils/host.go` | Vfs |
| `internal/utils/map.go` | Slices |
| `internal/utils/overlay_vfs.go` | Vfs |
| `internal/utils/set.go` | NonNullable, Slices |
| `internal/utils/string_literal.go` | StringLiteral |
| `internal/utils/ts_api_utils.go` | CatchCallback, Nullish, OptionalEmpty, OptionalExpr, OptionalOperand, Switch, TypeGraph |
| `internal/utils/ts_eslint.go` | AccessorNames, BooleanCompare, EnumComparison, Highlights, MisusedPromises, NonNull, TypeGraph, UnsafeAccess, UnsafeReturn, Wrapping |
| `internal/utils/type_matches_specifier.go` | Specifier |
| `internal/utils/utils.go` | AssertionFix, Comments, Highlights, Loops, Options, Slices, TypeGraph |
| `internal/rules/*/options.go` (31 files) | OptionTables (generated by tools/gen_options.py), Options |

Files with no model: `cmd/tsgolint/enablevtprocessing_other.go`, `cmd/tsgolint/enablevtprocessing_windows.go`, `internal/rules/fixtures/fixtures.go`, `internal/rules/unbound_method/natively_bound_members.go`, `internal/utils/diagnostic_helpers.go`, `internal/utils/log.go`.

## Not modelled

* typescript-go itself: parsing, scanning of trivia, binding, checking, module resolution, program construction.
* Text of messages beyond the placeholders that matter to a theorem; the colours and header of printed diagnostics (`main.go`
  `printDiagnostic`) and the timing table's layout; profiling, tracing and signal handling.
* JSON text (lexing); only decoded values. Schema generation.
* `rule_tester`: creating programs; the snapshot files, the annotations and the checks of the tester are modelled (C123-C127, C130).
* The rules in the "no model" list above; for the other rules the parts left out are named at each definition
  (usually: position arithmetic of sub-expressions, the exact text produced by the scanner for a token).
* Operating-system failures (short writes, EINTR); memory exhaustion; stack overflow on very deep trees.

## Findings

Places where the code does not do what its users can expect; each is either proved as a `_hazard`/negative theorem or noted
at the definition it concerns.

Core
* `disableSolutionSearching` is ignored by the tsconfig search (C15).
* On the error path of the headless pipeline frames can be lost or interleaved (C08 witnesses).
* Names in assignment patterns and JSDoc modifiers/types of assignments get no events; the nested default pattern
  `[[x] = []] = y` gives not-allow-pattern events to the inner pattern (C22).
* Flag errors exit with 2, so headless.go:57-59 is dead code; `-h` exits 0; panics exit 2 (C29).
* An invalid range in a fix or label dereferences nil (C26).
* Keys of source overrides are not slash-normalised while lookups are (C30); concurrent first reads of a file can differ (C31).
* File specifiers without path compare against the bare cwd prefix; value specifiers from file/lib ignore declarations;
  `null` is the specifier named ""; an object specifier without "from" is a file specifier (C37, C38).
* `BoolOr` treats garbage as unset; a `checksVoidReturn` that is neither boolean nor object turns all its checks off (C36, C50).
* `Filter` may return its input slice itself (C35).
* The unsafe-assignment check indexes out of range if the sender has more type arguments than the receiver of the same
  target (C39); `discriminateAnyType`'s visited set can hide `Promise<any>` (C40).
* `GetCommentsInRange` at position 0 yields comments twice.

Rules
* no-mixed-enums panics on an enum whose first declaration is empty or a merged namespace (C46).
* switch-exhaustiveness-check: a suggestion inserted before `default` can capture fall-through (C45).
* no-unnecessary-template-expression: `\0${1}` becomes `\01`; CR/LF merging (C47 hazards); order of regex flags.
* no-duplicate-type-constituents: C48_hazard, `(| A)` falsely reported, C48_fix_panics.
* no-unnecessary-boolean-literal-compare: other constituents of a nullable boolean are ignored; `!!(a < b === false)`
  becomes `!a < b`; `return true ===\n x` becomes `return` (C54).
* prefer-string-starts-ends-with: `lastIndexOf` −1 === −1, empty `x.slice`, `slice(-3, 0)`, strings differing in
  whitespace count as equal tokens, legacy octal escapes, Go quoting `\a`/`\U`, unbalanced parentheses (C55).
* prefer-includes: `a?.indexOf(b) === -1` becomes `!a?.includes(b)`; NaN and holes; `/\\./`; constructor flags ignored;
  `let` variables (C56).
* dot-notation: comments inside the brackets are lost (C57).
* restrict-plus-operands: `object`, unconstrained type parameters and branded intersections are not reported (C58).
* strict-boolean-expressions: an enum member in a union silences the rule; branded strings count as objects (C59).
* no-unsafe-enum-comparison: dotted enum names suggested without scope check; computed members count as strings (C60).
* no-redundant-type-constituents: swapped and repeated texts, `(never | string) & x`, `boolean` behind a reference; map
  iteration makes the order of reports nondeterministic (C61).
* no-base-to-string: the memo makes answers order-dependent (C62).
* no-floating-promises: parentheses below the top cause false reports; commas inside choices are missed; `.finally` of
  non-promises counts as handled (C63).
* await-thenable: iterables that are not arrays are judged by their first type argument; removing `await` may join lines (C64).
* restrict-template-expressions: infinite recursion on `type A = A[]` with allowArray (C65).
* non-nullable-type-assertion-style: for `<T>x` the suggestion keeps the assertion (C66).
* related-getter-setter-pairs: static and instance accessors are paired; `'foo'` and `foo` are not (C67).
* no-array-delete: `delete a?.[i]` becomes `a.splice([i, 1)`; comma indices; unions of intersections unseen (C68).
* only-throw-error: a reassigned caught variable still counts as rethrown (C69).
* require-array-sort-compare: unions of string arrays are reported despite ignoreStringArrays (C70).
* prefer-reduce-type-parameter: `as const` becomes `reduce< const>` (C71).
* promise-function-async: promises by symbol name only (C72).
* no-unnecessary-qualifier: shadowing by symbols of other flags overlooked; comments lost (C73).
* prefer-regexp-exec: `s.match('')` becomes a comment; escaped slashes; copies of global expressions; swapped evaluation order (C74).
* no-implied-eval: any call named `bind` passes for a function; `globalThis.window.setTimeout`, `self` unseen (C75).
* no-unnecessary-type-arguments: defaults that are parameters of their own declaration; re-inference of calls (C76).
* unbound-method: nil dereference on an unannotated `this` parameter; `(a.m || b)()` counts as safe (C77).
* no-confusing-void-expression: right operand of an unused comma is reported; removing `return` may change parsing (C78).
* prefer-find: `?.at(0)` leaves a stray `?`; numeric strings out of range count as zero; holes; shadowed `undefined`/`NaN` (C79).
* no-unsafe-member-access: `(x.a).b` is reported twice (C80).
* no-unsafe-argument: spreading an iterable does not move the parameter cursor; a tuple of variable length is taken to end
  with its last type; a call without resolved signature panics (C82).
* no-unsafe-return: a promise of any returned by a non-async function is never reported; two undefined awaited types count
  as equal (C83).
* no-unsafe-assignment: members after one initialised by an assignment expression are not checked; holes of assignment
  patterns are reported; a default type argument (`<T = any>`) attracts the report's position (C84).
* prefer-return-this-type: a path returning a union with the class does not stop the report, so the fix breaks (C86).
* use-unknown-in-catch-callback-variable: `catch((...e: []) => {})` panics; a `this` parameter is reported and annotated
  instead of the error variable (C87).
* no-unnecessary-type-conversion: `~~4294967296` is reported though it changes the value; `return!!ok` becomes `returnok`;
  removing `x += ''` below an `if` makes the next statement conditional; `Number(5).toFixed()` becomes `5.toFixed()` (C88).
* no-useless-default-assignment: `{[k]: x = 1}` is judged as property `k`; elements of `[...T[]]`, properties below an array
  element with a default, and `void` properties are reported although the default may be used; behind a `this` parameter the
  next parameter's type is used; `({a}: T | undefined = undefined)` is made required by the fix (C89).
* consistent-type-exports: the automatic fix silently drops specifiers whose symbol is not resolved (and import attributes);
  `export*from 'a'` becomes `exporttype *from 'a'` (C90).
* no-misused-spread: `Object.fromEntries` is suggested for a WeakMap, which is not iterable; `return{...m}` becomes
  `returnObject.fromEntries(m)` (C91).
- **C93** prefer-readonly-parameter-types: type arguments of readonly arrays and tuples are judged without consulting the set of seen types, so `type T = readonly T[]` recurses for ever (`C93_hazard_diverges`).
- **C94 prefer-readonly**: writes in classes nested in the class are not seen (`C94_hazard_nested`); `(this.x)++`, `(this.x) += 1`, `for (this.x of xs)`, patterns as values of properties in patterns
  are not noticed (`C94_hazard_unnoticed`); `[this.x.y] = a` counts as a write of `x` (`C94_overnoticed`); the fix of `#x` leaves out the type annotation (`C94_hazard_hash`).
- **C95 no-unnecessary-type-parameters**: only the first default met is looked at, so that a type parameter used in a later default can be reported as never used (`C95_hazard_default`);
  a comma or `>` in a comment in the type parameter list makes the suggestion cut into the comment (`C95_hazard_comma`, `C95_hazard_closing`); a constraint that mentions the parameter itself
  (`T extends Foo<T>`) is copied although the parameter is removed.
- **C96 no-misused-promises**: the argument check keeps lists where upstream keeps sets, and deletes one void occurrence per promise-returning type: with two void overloads (or one generic one, which
  counts twice because of its contextual type) before a promise-returning one, an async callback is reported although it is welcome (examples beside `C96_arguments`); `xs.filter(o.asyncMethod)` is
  reported twice (`C96_predicates`); a promise-valued comma expression is reported as a condition anywhere, and twice in `if ((a, p))`; `if (a = p)` is skipped while `if ((a = p))` is reported;
  a parenthesised annotation `const f: (() => void) = async …` is never looked at (`C96_parenthesised`).
- **C98**: with `exactOptionalPropertyTypes`, `isTypeUnchanged` means to compare unions that contain `undefined`; but `IsTypeFlagSet` looks at the flags of
  the type itself, which for a union are not those of its constituents. So the comparison is only made if both types are `undefined` themselves, where it
  always succeeds (`C98_exactOptional`).
- **C99**: (1) white space before `as` is recognised byte by byte: of a no-break space (C2 A0) the second byte is removed and the first stays, the file is
  no longer UTF-8 (`C99_noBreakSpace`); (2) `x as T[]in y`, `return<T>x`, `x!in y` become `xin y`, `returnx`, `xin y` (`C99_glue…`); (3) `() => <T>{a: b}`
  becomes `() => {a: b}`, a block (`C99_block`; only for several assertions in a row are parentheses added); (4) `f((a, b) as any as T)` becomes `f(a, b)`
  (`C99_parentheses`); (5) the search for a JSDoc cast is also made in TypeScript files, so of `/** doc */ <T>x` the comment is removed and the assertion
  stays (`C99_doc_instead`).
- **C100**: `GetContextualType` knows the expected type of a property value only if the value is an identifier; `x!` is none, so in `{ a: x! }` (and in parentheses,
  returned values, …) it is never reported as contextually unnecessary (`C100_property`): the rule misses cases, but none is reported wrongly.
- **prefer-nullish-coalescing changes the meaning** of some code it reports (C102): `x === x || x === null ? y : x` is taken for a test for null (the comparison of `x` with itself is not noticed) and `x ?? y` suggested; `x["#b"]` and `x.#b` are considered the same property; `if (x == null) x += y` is reported like `x = y` because `ast.IsAssignmentExpression(…, false)` accepts compound assignments, and `x ??= y` suggested; `?.` in a key is ignored, so `if (x[y?.b] == null) x[y.b] = z` becomes `x[y.b] ??= z`, which throws when `y` is undefined.
- **prefer-nullish-coalescing's suggestion for chains of `||`** (C103): where the left operand of the reported `||` is `a && b` and the whole is an operand of another `||`, the parenthesis is put before `b`: `a && b || c || d` becomes `a && (b ?? c) || d`, with another value when `a` is null; and `a || b && c || d || e` becomes `a || (b && c ?? d) || e`, a syntax error.
- no-deprecated: `searchForDeprecationInAliasesChain` has no visited set; two modules that re-export a name from each other (`export { a } from './b'` and `export { a } from './a'`) make the loop run for ever on a use of the name (C104 `circular_forever`; the checker is assumed to give the immediate alias on such a circle).
- no-deprecated: in `const { x: a = b } = o` the rule does not distinguish key, name and default value: all identifiers in the element are reported when `x` is deprecated, and in `const { a = b } = o` the local `b` is reported when `o` has a deprecated property called `b` (C105 `all_parts`, `default_reported`).
- **no-unnecessary-condition** (C106, C107): values of type `{}` are reported as always truthy although they may be `""` or `0` (`empty_object`); on `??`, unresolved conditional types and `T & U` are reported as never nullish (`conditional_reported`, `intersection_reported`), `null | undefined` is not reported as always nullish (`union_missed`); `null < n` is reported as having no overlap although `null < 1` and not `null < 0` (`null_less`); the branches for indexed access types in checkNode and checkNodeForNullish are dead code (`throughIndex_dead`).
- **Code box** (C108): a line ending with a character outside ASCII is cut inside it (`end_iff`); a lone carriage return or U+2028 before a line feed inside the range makes the CLI panic (`carriage_return_panics`); so does a diagnostic amid blank lines (`blank_panics`).
- **Command line** (C109): a project below a directory called `node_modules` lints nothing and exits with 0 (`inside_node_modules`); the exit code is 0 however many errors are found (`findings_ignored`); the table of timings gets out of line from 1000 s per rule on.
- **prefer-optional-chain** (C110): increments behind `!` or in call arguments are not seen as side effects, so `a[++i]!.b && a[++i]!.b.c` is merged (`increments_missed`); `f().b && f().b.c` is merged too (one call instead of two).
- prefer-optional-chain: in OR chains `x === null` and the like are classified as `NotStrictEqualNull`, ..., so that the code for `StrictEqualNull`, `StrictEqualUndef` and `EqualNull` in OR chains is dead (C111 `or_kinds`). Any binary operator that is not relational counts as a safe comparison at the end of a chain: `foo && foo.bar + 'x'` is rewritten to `foo?.bar + 'x'`, `foo && foo.bar === t` with `t: T` to `foo?.bar === t` (C111 `trailing_missed`).
- prefer-optional-chain: only the first operand of an expression is checked not to be a plain comparison, so `a && b.c === d && b.c.e` gives the chain `b.c === d && b.c.e`, whose replacement `b.c?.e` drops the comparison (C112 `comparison_first`).
- prefer-optional-chain: `buildOptionalChain` cuts the last character off a part marked non-null, but only names are given their `!` there: in an OR chain `!(x as any)! || !(x as any)!.foo` becomes `!(x as any?.foo` and `!this!.a || …` style roots lose a letter (C113 `last_character_lost`); parentheses around operators are dropped, so `(a ?? b) && (a ?? b).c` becomes `a ?? b?.c` (C113 `parentheses_lost`).
- prefer-optional-chain: a comparison in parentheses at the end of an AND chain is dropped by the automatic fix (`foo && (foo.bar === 0)` becomes `foo?.bar`, C114 `comparison_lost`), parentheses around the compared access give unbalanced text (`foo && (foo.bar) === 0` becomes `(foo?.bar`, C114 `parentheses_broken`); a `typeof` check beside other checks loses its effect (`typeof u !== 'undefined' && u.a && u.a.b` becomes `u.a?.b`, C114 `typeof_guard_lost`).
- prefer-optional-chain, OR chains: the sides of any operator are swapped, so `!x || 5 - x.y` is rewritten to `x?.y - 5` (C115 `sides_swapped`); `!x || (x.y) !== 5` becomes `x?.y !== (x.y)` and `!x || typeof x.y === 'undefined'` becomes `x?.y === typeof x.y` (C115 `other_side_lost`); `!u?.a || !u.a.b || !u.a.b.c` becomes `!u.a?.b?.c`, which throws for undefined `u` (C115 `marks_lost`).
- prefer-optional-chain: the parent of `x || {}` is taken for an access to it although it may be its key: `a[x || {}]` gets `x?.[x || {}]`, losing `a` (C116 `key_mistaken`); what is around the access is not looked at, so `(x || {}).y = 1` gets `x?.y = 1`, a syntax error, and `x satisfies T` and `new X` on the left get no parentheses (C116 `assigned_too`, `empty_head`); for null the new expression is undefined where `{}` may have a member (`(x || {}).toString`, C116 `empty_meaning`).
- prefer-optional-chain: every binary operator but the relational ones counts as a comparison, and none but the equalities is checked: with default options `x && (x.y = 5)` is rewritten by itself to `x?.y`, dropping the assignment (C117 `assignment_dropped`), and `x && x.y + "a"` to `x?.y + "a"`, which is `"undefineda"` where it was undefined (C117 `addition_kept`); the options `checkAny`, `checkString`, … do nothing for chains that begin with a comparison (C117 `types_unused`).
- prefer-optional-chain rewrites OR chains by itself in ways that change their value (C118 `loose_then_null`, `undefined_then_null`, `cut_unguarded`): `u == null || u.y === null` and
  `u === undefined || u.y === null` become `u?.y === null`, which is false for undefined; `!u || u.y === null || !u.y.z` becomes `u?.y === null || !u.y.z`, which throws for undefined.
- prefer-optional-chain flattens `&&`s and `||`s through parentheses, but replaces the text from the first to the last operand of a chain (C119 `range_broken`): `x && (x.a && y)` becomes
  `x?.a && y)` by itself, which does not parse.
- no-unnecessary-condition, optional chains (C120): `e?.[i]?.x` is judged by the element type although `e[i]?.x` is not (`guarded_index`; typescript-eslint skips both); a private name (`x?.#p?.q`) is looked up by its text, so that in a class with a string index signature the index decides, also if `#p` is optional; a call is not judged if the first overload returns something nullish, whichever is called (`plain_call_iff`).
- prefer-optional-chain (C112): an operand that may not begin an OR chain (`a.c === b`) is only passed over at the very beginning; after an unrelated operand it begins a chain (`badStart_later`).
- Snapshot files (C124): a content with a line that ends in `---` (for example a comment in the code it shows) is cut off there when it is read again (`dashes_lost`), so that the next run fails.
- prefer-string-starts-ends-with (C126): `staticString`, `getNullishKind` and `parseRegExp` follow variables to their initialisers without remembering where they were: `var x = x; s[0] === x` or `var r = r; r.test(s)` recurses until the stack overflows, which ends the process (`hazard_self`, `endless_iff`). They also follow `let` and `var` that are assigned to later (`hazard_assigned`); prefer-regexp-exec and prefer-find do neither.
* no-unnecessary-template-expression decides about parentheses only if the parent is an expression: ``const s = `${a, b}` `` becomes `const s = a, b`, ``{ p: `${a, b}` }`` gets a shorthand property, and the type ``` `${A | B}`[] ``` becomes `A | B[]` (`C129_hazard_parent`). A template directly after a keyword is glued to it: ``return`${x}` `` becomes `returnx` (`C129_hazard_keyword`).
* strict-void-return compares a static member with the instance members of the types its class extends or implements (the model of C128 has no notion of `static` because the rule has none), and never checks an object method with a computed name although `getMemberName` has code for it.
* Snapshot annotations take columns from the scanner (UTF-16 units) but look for tabs by bytes: in `é⇥1` the marks of `1` begin in column 2 instead of 5 (`C130_hazard_columns`).
* no-unnecessary-type-arguments takes `interface J extends I<number>` for a value (the check looks for an interface one level too low, `isInTypeContext`): with `interface I<T = string>` and `declare const I: new <T = number>() => …` the argument is reported, although the default that counts is `string` (`C76_hazard_interface`).
* prefer-string-starts-ends-with follows initialisers of variables without remembering where it was (`staticString`, `getNullishKind`, `parseRegExp`): `var a = a; s[0] === a` and `const a = b, b = a; a.test(s)` recurse until the stack overflows, which ends the whole process (`C131_hazard_circular`: exactly circular initialisers do this). It also follows variables that are not constant (`C131_hazard_let`).
* related-getter-setter-pairs does not pair `get 'x'()` with `set x(v)`, nor `'x'` with `"x"`, nor `1` with `[1]`, although they are the same property: `GetNameFromMember` treats literals only in brackets (`C67_hazard_quoted`).
- prefer-includes rewrites `/ab/.test(...xs)` to `(...xs).includes('ab')`, which is a syntax error (C56_hazard_spread), and follows `let` variables whatever has been assigned to them since (C56_hazard_let).
- `HasCommentsInRange` sees only the comments before the first token of the range (C132_hazard_behind), so a caller asking about a whole expression is told about the comments in front of it only.
- unbound-method passes over `const { 'm': f } = o` and over the inner pattern of `({ a: { m } } = o)` (C77_hazard_names).
* `no-unnecessary-condition`: for `interface O { a?: object; [n: number]: object }` and `K extends "a" | number`, `if (o[k])` is judged by the number index type
  and reported as always truthy although `o.a` may be undefined (C137_hazard_mixed).
- require-await's suggestion decides whether a semicolon is needed from the text before the whole member but writes it where `async` was: `class A { x = 1\n static async [k]() {…} }` becomes `static ;[k]() {…}`, a field called `static` and an instance method (C138_hazard_modifiers). After a comment the semicolon can be a syntax error in an object literal (`({ a: 1, /* b */ async [k]() {…} })`, C138_hazard_comment), although the code says a semicolon too many is "always safe", or be missing (`f // g();\nasync () => {…}`, C138_hazard_hidden).
- prefer-regexp-exec's fix copies `new C` without arguments unparenthesised: `s.match(new RegExp)` becomes `new RegExp.exec(s)`, which tries to construct `RegExp.exec` (C139_hazard_new). The suggestion `… satisfies T` of no-unnecessary-type-conversion gets no parentheses below `typeof`, `void` and `delete` (`void String(x)` becomes `void x satisfies string`, read as `(void x) satisfies string`) or before a non-null `!`, because these parents are not in the list of kinds (C139_hazard_typeof, C139_hazard_nonNull).
- no-misused-spread listens to calls but not to `new`: `new C(...text)` is never reported although `f(...text)` is (C140_hazard_new). A rest element in the head of a loop (`for ([...a] of b)`) or in a nested pattern with a default value (`[[...a] = b] = c`) is checked as if it were spread (C140_hazard_loop, C140_hazard_default): the traversal calls only the left side of a plain assignment a pattern. Spreads in computed names of patterns are never checked (C140_hazard_name).
- GetFunctionHeadLoc returns, for an arrow function, the range of the arrow with the white space and comments before it, and for a method whose modifiers are all decorators a range that begins with the first decorator; with another modifier the decorators are left out (C141_arrow, C141_hazard_decorator).
- prefer-readonly-parameter-types does not listen to setters: `set x(a: string[])` is never reported, though typescript-eslint reports it and the same parameter of a method is (C143_hazard_setter).
- prefer-return-this-type does not look through parentheses: in `class C { f = ((): C => this) }` the function is never checked (C86_hazard_parens); typescript-eslint, whose trees have no parentheses, checks it.

