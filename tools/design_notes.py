HEAD='''# tsgolint in Lean 4 — design

(Generated by `tools/design.py` from `properties.jsonl`, `MANIFEST.json`, the Lean sources and `tools/design_notes.py`.)

`/verif/properties.jsonl` lists the properties (C01…); `/verif/MANIFEST.json` maps them to theorems.
The Lean project is `/verif/lean`:

* `Verif/Model/*.lean`  – the model of the Go code, function by function, each definition citing file:lines in /repo
  and saying where it simplifies;
* `Verif/Spec/*.lean`   – small independent specifications used in the statements;
* `Verif/Proof/*.lean`  – lemmas and invariants;
* `Verif/Props/*.lean`  – the property theorems, each followed by an `example` that meets its hypotheses.

`seeded/LOG.jsonl` records the wrong programs the theorems were tested against (`tools/mutate.py` applies each edit to a
scratch copy of the model, rebuilds, and logs which theorems fail).

## Trusted base

* Lean 4.33.0's kernel. Every theorem in the manifest depends at most on the axioms `propext`, `Classical.choice` and
  `Quot.sound` (checked with `#print axioms` for all of them: about half use all three, a third only `propext` and
  `Quot.sound`, the rest `propext` or nothing). No own axioms, no `native_decide`/`bv_decide`.
* The reading of the Go source into the model (the code was never run here). Each definition cites its source.
* Everything outside the repository is a parameter or an abstract step of the model, with assumed behaviour stated in
  the theorem's hypotheses: typescript-go (parser, scanner, checker, `tspath`, `tsoptions`, `project`, `collections`),
  go-json-experiment/json, regexp2, Go's runtime (channel, mutex, WaitGroup, map semantics), `bufio`, `flag`, `os`,
  `slices.SortFunc` (assumed only to return a sorted permutation — *not* assumed stable), IEEE arithmetic.
* Go `int` is modelled by `Int`/`Nat` (no overflow at 2^63) except where the property is about a fixed width
  (frame length: 32 bits, modelled exactly; listener kinds: bounded by 1000; int16 noted).
* Go panics are modelled by `Option.none`/`Except` results, never by a default value. Go functions that may fail to
  terminate are modelled with fuel: the theorems say that the answer does not depend on the fuel once it is reached, and
  either that enough fuel exists or (C65_diverges) that none does.

## Conventions of the model

* Types of the checked program are the elements of an arbitrary, possibly cyclic graph `T` with functions for flags,
  parts, symbols, type arguments, constraints, …: whatever typescript-go answers is covered. Hypotheses such as
  well-foundedness of "part of" are stated in each theorem.
* Syntax trees of rules are inductive types with the node kinds the rule distinguishes and an "other" constructor.
  Where parents matter, a context (zipper) type carries the path to the root.
* Rules driven by several listeners are run by `RuleTree.run` over the enter/exit events of a tree; C22/C53 connect
  that order with the traversal of `linter.go`.
* Texts are byte lists; fixes are `(text, pos, stop)` with `Int` positions and are applied by the modelled
  `ApplyRuleFixes` (`StableFix.AppliesTo`), not by an idealised editor.
'''
HOW={
'C01':'`ApplyRuleFixes` over bytes with `Int` positions; slicing returns `none` on panic; sorting is an arbitrary sorted-permutation function. Refinement of the loop to right-to-left splicing, induction over the sorted list.',
'C02':'Same model; induction over the sorted list.','C03':'Same model.','C04':'Same model; slices out of range are `none`.',
'C05':'Permutation uniqueness of sorted lists; negative witness for equal keys.',
'C06':'Bytes of `writeMessage`; decoder specification by well-founded recursion; round trip and prefix theorem by induction; wrap-around witness.',
'C07':'Labelled transition system of main, workers, channel and buffered writer; inductive invariant over all reachable states, progress and a decreasing measure.',
'C08':'Same transition system.',
'C09':'JSON syntax tree; case analysis and list induction.','C10':'JSON syntax tree.',
'C11':'Induction over lists; map iteration orders are arbitrary permutations.','C12':'Same model.',
'C13':'Transition system of the resolver workers; invariant, progress, measure.',
'C14':'Loop invariant; termination by the number of unvisited nodes.','C15':'Rank on ancestors.',
'C16':'Transition system of C07: multiset invariant on queues, workers and done files.','C17':'Same transition system.',
'C18':'Worker loop with mutable context and listener registry, rules are arbitrary state machines; refinement to a stateless per-file specification.',
'C19':'Same.','C20':'Same; permutation invariance.','C21':'Same.','C24':'Same, timed variant of the loop.',
'C22':'Structural induction on trees.','C23':'Arithmetic.','C25':'Commutativity and associativity of merging.',
'C26':'Case analysis.','C27':'Case analysis.','C28':'Induction over programs.','C29':'Case analysis of the driver.',
'C30':'Map reasoning.','C31':'Histories and interleavings of reads.','C32':'Interleavings of first reads.','C33':'Map reasoning.',
'C34':'Induction on bytes and runes.','C35':'Induction on lists; Go slices with shared backing arrays for the aliasing statement.',
'C36':'Case analysis.','C37':'JSON syntax tree.','C38':'Graph of types.',
'C39':'Graph reachability; the visited set is handled by an invariant (coinduction up to the visited pairs).','C40':'Same.',
'C41':'Case analysis on strings.','C42':'Stack machine over enter/exit events refined to structural recursion.',
'C43':'Scope stack refined to structural recursion.','C44':'Decision table proved against an independent specification; fix texts through `AppliesTo`.',
'C45':'Graph of types; set reasoning on constituents.','C46':'List induction on declarations.',
'C47':'Escaping function against a reading relation of template bodies.','C48':'Unions/intersections as sets of values.',
'C49':'Composition of the previous models.','C50':'Tables generated from options.go and the schemas.',
'C51':'Recursive visitor with fuel; independence of fuel, totality under well-foundedness.','C52':'Graph of types.',
'C53':'Event sequence of a tree is a well-nested word; rule machine lemma.',
'C54':'Decision function over types and operators; conditions evaluated in a small world of values before and after the fix; fix text through `AppliesTo`.',
'C55':'Strings as lists of code units; each replaced form evaluated before and after for all strings.',
'C56':'Regular expressions as a matching relation on strings; the literal reader of the code proved against it by induction on the pattern.',
'C57':'Decision table plus fix segments; the new text is read back as the same property name.',
'C58':'Induction over type constituents; run-time kinds of values as a typing relation.',
'C59':'Traversal with a set of visited nodes over enter events; decision table against a value semantics.',
'C60':'Finite sets of enum symbols; the suggestion evaluated against the comparison.',
'C61':'Types denote sets of values; redundancy is inclusion; list induction over constituents.',
'C62':'Memo table as state; invariant that every entry is a final answer; negative witness for cycles.',
'C63':'Recursive judgement on expressions against an inductive relation of handled promises.',
'C64':'Three-valued thenable judgement; decision table; fix segments.',
'C65':'Recursion with fuel over type graphs; exactness for sufficient fuel, divergence theorem for cyclic arrays.',
'C66':'Sets of constituents with multiplicities removed; suggestion through `AppliesTo`.',
'C67':'Loop over members with a map; invariant relating the map to the members read so far.',
'C68':'Decision plus two edits; the new text is the call of splice with the same operands.',
'C69':'Decision tables over listeners; arguments found structurally.',
'C70':'Decision tables over types.',
'C71':'Decision and two edits; segments.',
'C72':'Decision table, any/all over signatures and constituents; position of the inserted keyword.',
'C73':'Name resolution as scopes; the removed qualifier leaves the same symbol.',
'C74':'Flags and patterns as strings; matching with and without `g`.',
'C75':'Decision table over callees and arguments.',
'C76':'Search from the last argument; the edit removes exactly one argument; specification function listing the declarations looked at.',
'C77':'Recursion over parents against an inductive relation of safe uses.',
'C78':'Recursion over parents with an inductive specification of used positions.',
'C79':'Lists as arrays; `find` and `filter` evaluated; edits through `AppliesTo`.',
'C80':'Memo of chain states; induction on the chain.',
'C81':'Decision table.',
'C82':'Iterator over parameter types refined to the binding of arguments to parameters by position.',
'C83':'Decision table; C39 for unsafe pairs.',
'C84':'Mutual recursion over patterns and types against an inductive relation of positions; fuel.',
'C85':'Decision over assignability answers.',
'C86':'Recursive visitor over returns; specification by membership of return statements.',
'C87':'Decision table over parameter shapes; edits.',
'C88':'Decision per form; values before and after the removal.',
'C89':'Decision per binding position; run-time binding of patterns.',
'C90':'Grouping of specifiers; export lists before and after the fix are equal.',
'C91':'Recursive type search as reachability.',
'C92':'Walk over statements against a membership relation of return statements.',
'C93':'Graph reachability with a seen set; termination by unvisited types, divergence witness.',
'C94':'Scope stack over events refined to a specification on the tree; set of written members.',
'C95':'Bounded counter with early exit refined to an unbounded count.',
'C96':'Decision tables for each of the places; specification relation of places.',
'C97':'Graph search with visited set; soundness by reachability.',
'C98':'Decision order against an independent disjunction of reasons.',
'C99':'Edits through `AppliesTo`; tokens before and after.',
'C100':'Decision; values of the union without null and undefined.',
'C101':'Sets of constituents and options; decision per form.',
'C102':'Evaluation in a world of values, both branches.',
'C103':'Grammar of mixed logical operators; the new text parses (`NullishParse`) and evaluates the same.',
'C104':'Alias chains as paths; fuel-free relation and terminating search.',
'C105':'Decision table over the kinds of name positions.',
'C106':'Types as sets of values; judgement against truthiness of all values.',
'C107':'Sets of values; constant comparisons.',
'C108':'Lines of a byte text; loop invariants on the printed window; arithmetic on columns.',
'C109':'Driver as a function of an environment; case analysis and list induction.',
'C110':'Structural comparison of expressions; evaluation in a world.',
'C111':'Operand classification against evaluation of the operand.',
'C112':'Loop over operands; invariant that the chain is a chain of prefixes.',
'C113':'Flattening and printing are inverse, by structural induction.',
'C114':'Composition of 110–113; evaluation of chain and replacement.',
'C115':'Same for `||`.',
'C116':'Same for the empty object form.',
'C117':'Guards of the report function; safety is equality of values.',
'C118':'Same for `||`.',
'C119':'Ranges of operands as segments of the text.',
'C120':'Typing relation between world and checker answers; induction on the chain.',
'C121':'Search for the argument of the predicate; decision.',
'C122':'Seen set keyed by ranges over a traversal; ranges of distinct nodes differ.',
'C123':'Comparison of keys is a total preorder; sorted permutations are unique.',
'C124':'Writer and parser are inverse; induction on lines.',
'C125':'State machine of calls; any interleaving gives the same file.',
'C126':'Search with fuel over scopes; exact relation of static values.',
'C127':'Tester as a function of the linter; pass iff the specification of a test case.',
'C128':'Listeners and the C92 judgement over a tree of places.',
'C129':'Precedence and parent table; the new text reads as the same expression.',
'C130':'Loop over lines; every marked byte characterised.',
'C131':'Graph of nodes; visited set; relation of following variables.',
'C132':'Scanner over bytes; comments as segments of the text.',
'C133':'Truncation on UTF-8 bytes at a character boundary.',
'C134':'Paths into a tree; the list of judged paths is duplicate-free and its members are characterised.',
'C135':'Same technique for nested unions and intersections.',
'C136':'Caches as state; invariant that every entry is the fresh answer (lengths and unwritten places for slices), by induction over histories.',
'C137':'Object and index types with a semantics of values and keys; soundness from stated laws of the checker; counterexample world.',
'C138':'Model/RemoveAsync: the loop over siblings, the walk over ancestors with the same start, the token after async, the name of the annotated type; the edits come from Model/RequireAwait. C138_text builds the text from segments (Proof/StableFix) and shows that the edits, in the order the code gives them, are a shuffle of the segments edits. C138_decides characterises the semicolon by the last character that is not blank; C138_separate says why that is enough; three hazard theorems show where it is not.',
'C139':'Spec/Expression has trees, how they are written, a precedence parser with fuel and surroundings as lists of frames. Proof/Expression shows by induction over trees that everything the grammar writes is read as it was meant, whatever follows it (so in one way only). Model/Wrapping has the tables of kinds (strong operands, parents that bind strongly) and the replacement texts. The properties follow by showing that the tree meant is in the grammar: replacing an operand by one that binds at least as strong keeps a tree in the grammar (plug_mono).',
'C140':'Model/SpreadPlaces runs the listeners of no-misused-spread over the events of the traversal model (Model/Visit, C22). The specification gives every node the role ECMAScript gives it (target of an assignment or value), independently of the traversal, and says which children expand. By induction over roles, every value role is reached by the traversal as a value or lies in a skipped part; with C22_events_of_node each spread is then checked exactly once. Nodes are told apart by pointers; C140 also shows that distinct ids always have such an assignment of pointers.',
'C141':'Model/Highlights has the functions that compute ranges from positions. The specification lays a construct out as a concatenation of texts (before, white space and comments, tokens, after), from which the positions of parser and scanner follow; the theorems say which part of the text the range selects, for all texts.',
'C142':'Nodes are given by their places, as for C141, and the first token of a node by Reads. That the edits turn one text into the other is AppliesTo, the semantics of C28 and C139, by segments. For reports the effects of the reporting functions (C26) are used.',
'C143':'The tables of listeners are looked up by kind for the events of the traversal (C22), so that the claim is about files. Numbers of kinds are a parameter: different, and below 1000. Types and what is asked about them are parameters; that readonly is decided rightly is C93.',
}
NOT='''## Not modelled

* typescript-go itself: parsing, scanning of trivia, binding, checking, module resolution, program construction.
* Text of messages beyond the placeholders that matter to a theorem; the colours and header of printed diagnostics (`main.go`
  `printDiagnostic`) and the timing table's layout; profiling, tracing and signal handling.
* JSON text (lexing); only decoded values. Schema generation.
* `rule_tester`: creating programs; the snapshot files, the annotations and the checks of the tester are modelled (C123-C127, C130).
* The rules in the "no model" list above; for the other rules the parts left out are named at each definition
  (usually: position arithmetic of sub-expressions, the exact text produced by the scanner for a token).
* Operating-system failures (short writes, EINTR); memory exhaustion; stack overflow on very deep trees.
'''
FINDINGS='''## Findings

Places where the code does not do what its users can expect; each is either proved as a `_hazard`/negative theorem or noted
at the definition it concerns.

Core
* `disableSolutionSearching` is ignored by the tsconfig search (C15).
* On the error path of the headless pipeline frames can be lost or interleaved (C08 witnesses).
* Names in assignment patterns and JSDoc modifiers/types of assignments get no events; the nested default pattern
  `[[x] = []] = y` gives not-allow-pattern events to the inner pattern (C22).
* Flag errors exit with 2, so headless.go:57-59 is dead code; `-h` exits 0; panics exit 2 (C29).
* An invalid range in a fix or label dereferences nil (C26).
* Keys of source overrides are not slash-normalised while lookups are (C30); concurrent first reads of a file can differ (C31).
* File specifiers without path compare against the bare cwd prefix; value specifiers from file/lib ignore declarations;
  `null` is the specifier named ""; an object specifier without "from" is a file specifier (C37, C38).
* `BoolOr` treats garbage as unset; a `checksVoidReturn` that is neither boolean nor object turns all its checks off (C36, C50).
* `Filter` may return its input slice itself (C35).
* The unsafe-assignment check indexes out of range if the sender has more type arguments than the receiver of the same
  target (C39); `discriminateAnyType`'s visited set can hide `Promise<any>` (C40).
* `GetCommentsInRange` at position 0 yields comments twice.

Rules
* no-mixed-enums panics on an enum whose first declaration is empty or a merged namespace (C46).
* switch-exhaustiveness-check: a suggestion inserted before `default` can capture fall-through (C45).
* no-unnecessary-template-expression: `\\0${1}` becomes `\\01`; CR/LF merging (C47 hazards); order of regex flags.
* no-duplicate-type-constituents: C48_hazard, `(| A)` falsely reported, C48_fix_panics.
* no-unnecessary-boolean-literal-compare: other constituents of a nullable boolean are ignored; `!!(a < b === false)`
  becomes `!a < b`; `return true ===\\n x` becomes `return` (C54).
* prefer-string-starts-ends-with: `lastIndexOf` −1 === −1, empty `x.slice`, `slice(-3, 0)`, strings differing in
  whitespace count as equal tokens, legacy octal escapes, Go quoting `\\a`/`\\U`, unbalanced parentheses (C55).
* prefer-includes: `a?.indexOf(b) === -1` becomes `!a?.includes(b)`; NaN and holes; `/\\\\./`; constructor flags ignored;
  `let` variables (C56).
* dot-notation: comments inside the brackets are lost (C57).
* restrict-plus-operands: `object`, unconstrained type parameters and branded intersections are not reported (C58).
* strict-boolean-expressions: an enum member in a union silences the rule; branded strings count as objects (C59).
* no-unsafe-enum-comparison: dotted enum names suggested without scope check; computed members count as strings (C60).
* no-redundant-type-constituents: swapped and repeated texts, `(never | string) & x`, `boolean` behind a reference; map
  iteration makes the order of reports nondeterministic (C61).
* no-base-to-string: the memo makes answers order-dependent (C62).
* no-floating-promises: parentheses below the top cause false reports; commas inside choices are missed; `.finally` of
  non-promises counts as handled (C63).
* await-thenable: iterables that are not arrays are judged by their first type argument; removing `await` may join lines (C64).
* restrict-template-expressions: infinite recursion on `type A = A[]` with allowArray (C65).
* non-nullable-type-assertion-style: for `<T>x` the suggestion keeps the assertion (C66).
* related-getter-setter-pairs: static and instance accessors are paired; `'foo'` and `foo` are not (C67).
* no-array-delete: `delete a?.[i]` becomes `a.splice([i, 1)`; comma indices; unions of intersections unseen (C68).
* only-throw-error: a reassigned caught variable still counts as rethrown (C69).
* require-array-sort-compare: unions of string arrays are reported despite ignoreStringArrays (C70).
* prefer-reduce-type-parameter: `as const` becomes `reduce< const>` (C71).
* promise-function-async: promises by symbol name only (C72).
* no-unnecessary-qualifier: shadowing by symbols of other flags overlooked; comments lost (C73).
* prefer-regexp-exec: `s.match('')` becomes a comment; escaped slashes; copies of global expressions; swapped evaluation order (C74).
* no-implied-eval: any call named `bind` passes for a function; `globalThis.window.setTimeout`, `self` unseen (C75).
* no-unnecessary-type-arguments: defaults that are parameters of their own declaration; re-inference of calls (C76).
* unbound-method: nil dereference on an unannotated `this` parameter; `(a.m || b)()` counts as safe (C77).
* no-confusing-void-expression: right operand of an unused comma is reported; removing `return` may change parsing (C78).
* prefer-find: `?.at(0)` leaves a stray `?`; numeric strings out of range count as zero; holes; shadowed `undefined`/`NaN` (C79).
* no-unsafe-member-access: `(x.a).b` is reported twice (C80).
* no-unsafe-argument: spreading an iterable does not move the parameter cursor; a tuple of variable length is taken to end
  with its last type; a call without resolved signature panics (C82).
* no-unsafe-return: a promise of any returned by a non-async function is never reported; two undefined awaited types count
  as equal (C83).
* no-unsafe-assignment: members after one initialised by an assignment expression are not checked; holes of assignment
  patterns are reported; a default type argument (`<T = any>`) attracts the report's position (C84).
* prefer-return-this-type: a path returning a union with the class does not stop the report, so the fix breaks (C86).
* use-unknown-in-catch-callback-variable: `catch((...e: []) => {})` panics; a `this` parameter is reported and annotated
  instead of the error variable (C87).
* no-unnecessary-type-conversion: `~~4294967296` is reported though it changes the value; `return!!ok` becomes `returnok`;
  removing `x += ''` below an `if` makes the next statement conditional; `Number(5).toFixed()` becomes `5.toFixed()` (C88).
* no-useless-default-assignment: `{[k]: x = 1}` is judged as property `k`; elements of `[...T[]]`, properties below an array
  element with a default, and `void` properties are reported although the default may be used; behind a `this` parameter the
  next parameter's type is used; `({a}: T | undefined = undefined)` is made required by the fix (C89).
* consistent-type-exports: the automatic fix silently drops specifiers whose symbol is not resolved (and import attributes);
  `export*from 'a'` becomes `exporttype *from 'a'` (C90).
* no-misused-spread: `Object.fromEntries` is suggested for a WeakMap, which is not iterable; `return{...m}` becomes
  `returnObject.fromEntries(m)` (C91).
- **C93** prefer-readonly-parameter-types: type arguments of readonly arrays and tuples are judged without consulting the set of seen types, so `type T = readonly T[]` recurses for ever (`C93_hazard_diverges`).
- **C94 prefer-readonly**: writes in classes nested in the class are not seen (`C94_hazard_nested`); `(this.x)++`, `(this.x) += 1`, `for (this.x of xs)`, patterns as values of properties in patterns
  are not noticed (`C94_hazard_unnoticed`); `[this.x.y] = a` counts as a write of `x` (`C94_overnoticed`); the fix of `#x` leaves out the type annotation (`C94_hazard_hash`).
- **C95 no-unnecessary-type-parameters**: only the first default met is looked at, so that a type parameter used in a later default can be reported as never used (`C95_hazard_default`);
  a comma or `>` in a comment in the type parameter list makes the suggestion cut into the comment (`C95_hazard_comma`, `C95_hazard_closing`); a constraint that mentions the parameter itself
  (`T extends Foo<T>`) is copied although the parameter is removed.
- **C96 no-misused-promises**: the argument check keeps lists where upstream keeps sets, and deletes one void occurrence per promise-returning type: with two void overloads (or one generic one, which
  counts twice because of its contextual type) before a promise-returning one, an async callback is reported although it is welcome (examples beside `C96_arguments`); `xs.filter(o.asyncMethod)` is
  reported twice (`C96_predicates`); a promise-valued comma expression is reported as a condition anywhere, and twice in `if ((a, p))`; `if (a = p)` is skipped while `if ((a = p))` is reported;
  a parenthesised annotation `const f: (() => void) = async …` is never looked at (`C96_parenthesised`).
- **C98**: with `exactOptionalPropertyTypes`, `isTypeUnchanged` means to compare unions that contain `undefined`; but `IsTypeFlagSet` looks at the flags of
  the type itself, which for a union are not those of its constituents. So the comparison is only made if both types are `undefined` themselves, where it
  always succeeds (`C98_exactOptional`).
- **C99**: (1) white space before `as` is recognised byte by byte: of a no-break space (C2 A0) the second byte is removed and the first stays, the file is
  no longer UTF-8 (`C99_noBreakSpace`); (2) `x as T[]in y`, `return<T>x`, `x!in y` become `xin y`, `returnx`, `xin y` (`C99_glue…`); (3) `() => <T>{a: b}`
  becomes `() => {a: b}`, a block (`C99_block`; only for several assertions in a row are parentheses added); (4) `f((a, b) as any as T)` becomes `f(a, b)`
  (`C99_parentheses`); (5) the search for a JSDoc cast is also made in TypeScript files, so of `/** doc */ <T>x` the comment is removed and the assertion
  stays (`C99_doc_instead`).
- **C100**: `GetContextualType` knows the expected type of a property value only if the value is an identifier; `x!` is none, so in `{ a: x! }` (and in parentheses,
  returned values, …) it is never reported as contextually unnecessary (`C100_property`): the rule misses cases, but none is reported wrongly.
- **prefer-nullish-coalescing changes the meaning** of some code it reports (C102): `x === x || x === null ? y : x` is taken for a test for null (the comparison of `x` with itself is not noticed) and `x ?? y` suggested; `x["#b"]` and `x.#b` are considered the same property; `if (x == null) x += y` is reported like `x = y` because `ast.IsAssignmentExpression(…, false)` accepts compound assignments, and `x ??= y` suggested; `?.` in a key is ignored, so `if (x[y?.b] == null) x[y.b] = z` becomes `x[y.b] ??= z`, which throws when `y` is undefined.
- **prefer-nullish-coalescing's suggestion for chains of `||`** (C103): where the left operand of the reported `||` is `a && b` and the whole is an operand of another `||`, the parenthesis is put before `b`: `a && b || c || d` becomes `a && (b ?? c) || d`, with another value when `a` is null; and `a || b && c || d || e` becomes `a || (b && c ?? d) || e`, a syntax error.
- no-deprecated: `searchForDeprecationInAliasesChain` has no visited set; two modules that re-export a name from each other (`export { a } from './b'` and `export { a } from './a'`) make the loop run for ever on a use of the name (C104 `circular_forever`; the checker is assumed to give the immediate alias on such a circle).
- no-deprecated: in `const { x: a = b } = o` the rule does not distinguish key, name and default value: all identifiers in the element are reported when `x` is deprecated, and in `const { a = b } = o` the local `b` is reported when `o` has a deprecated property called `b` (C105 `all_parts`, `default_reported`).
- **no-unnecessary-condition** (C106, C107): values of type `{}` are reported as always truthy although they may be `""` or `0` (`empty_object`); on `??`, unresolved conditional types and `T & U` are reported as never nullish (`conditional_reported`, `intersection_reported`), `null | undefined` is not reported as always nullish (`union_missed`); `null < n` is reported as having no overlap although `null < 1` and not `null < 0` (`null_less`); the branches for indexed access types in checkNode and checkNodeForNullish are dead code (`throughIndex_dead`).
- **Code box** (C108): a line ending with a character outside ASCII is cut inside it (`end_iff`); a lone carriage return or U+2028 before a line feed inside the range makes the CLI panic (`carriage_return_panics`); so does a diagnostic amid blank lines (`blank_panics`).
- **Command line** (C109): a project below a directory called `node_modules` lints nothing and exits with 0 (`inside_node_modules`); the exit code is 0 however many errors are found (`findings_ignored`); the table of timings gets out of line from 1000 s per rule on.
- **prefer-optional-chain** (C110): increments behind `!` or in call arguments are not seen as side effects, so `a[++i]!.b && a[++i]!.b.c` is merged (`increments_missed`); `f().b && f().b.c` is merged too (one call instead of two).
- prefer-optional-chain: in OR chains `x === null` and the like are classified as `NotStrictEqualNull`, ..., so that the code for `StrictEqualNull`, `StrictEqualUndef` and `EqualNull` in OR chains is dead (C111 `or_kinds`). Any binary operator that is not relational counts as a safe comparison at the end of a chain: `foo && foo.bar + 'x'` is rewritten to `foo?.bar + 'x'`, `foo && foo.bar === t` with `t: T` to `foo?.bar === t` (C111 `trailing_missed`).
- prefer-optional-chain: only the first operand of an expression is checked not to be a plain comparison, so `a && b.c === d && b.c.e` gives the chain `b.c === d && b.c.e`, whose replacement `b.c?.e` drops the comparison (C112 `comparison_first`).
- prefer-optional-chain: `buildOptionalChain` cuts the last character off a part marked non-null, but only names are given their `!` there: in an OR chain `!(x as any)! || !(x as any)!.foo` becomes `!(x as any?.foo` and `!this!.a || …` style roots lose a letter (C113 `last_character_lost`); parentheses around operators are dropped, so `(a ?? b) && (a ?? b).c` becomes `a ?? b?.c` (C113 `parentheses_lost`).
- prefer-optional-chain: a comparison in parentheses at the end of an AND chain is dropped by the automatic fix (`foo && (foo.bar === 0)` becomes `foo?.bar`, C114 `comparison_lost`), parentheses around the compared access give unbalanced text (`foo && (foo.bar) === 0` becomes `(foo?.bar`, C114 `parentheses_broken`); a `typeof` check beside other checks loses its effect (`typeof u !== 'undefined' && u.a && u.a.b` becomes `u.a?.b`, C114 `typeof_guard_lost`).
- prefer-optional-chain, OR chains: the sides of any operator are swapped, so `!x || 5 - x.y` is rewritten to `x?.y - 5` (C115 `sides_swapped`); `!x || (x.y) !== 5` becomes `x?.y !== (x.y)` and `!x || typeof x.y === 'undefined'` becomes `x?.y === typeof x.y` (C115 `other_side_lost`); `!u?.a || !u.a.b || !u.a.b.c` becomes `!u.a?.b?.c`, which throws for undefined `u` (C115 `marks_lost`).
- prefer-optional-chain: the parent of `x || {}` is taken for an access to it although it may be its key: `a[x || {}]` gets `x?.[x || {}]`, losing `a` (C116 `key_mistaken`); what is around the access is not looked at, so `(x || {}).y = 1` gets `x?.y = 1`, a syntax error, and `x satisfies T` and `new X` on the left get no parentheses (C116 `assigned_too`, `empty_head`); for null the new expression is undefined where `{}` may have a member (`(x || {}).toString`, C116 `empty_meaning`).
- prefer-optional-chain: every binary operator but the relational ones counts as a comparison, and none but the equalities is checked: with default options `x && (x.y = 5)` is rewritten by itself to `x?.y`, dropping the assignment (C117 `assignment_dropped`), and `x && x.y + "a"` to `x?.y + "a"`, which is `"undefineda"` where it was undefined (C117 `addition_kept`); the options `checkAny`, `checkString`, … do nothing for chains that begin with a comparison (C117 `types_unused`).
- prefer-optional-chain rewrites OR chains by itself in ways that change their value (C118 `loose_then_null`, `undefined_then_null`, `cut_unguarded`): `u == null || u.y === null` and
  `u === undefined || u.y === null` become `u?.y === null`, which is false for undefined; `!u || u.y === null || !u.y.z` becomes `u?.y === null || !u.y.z`, which throws for undefined.
- prefer-optional-chain flattens `&&`s and `||`s through parentheses, but replaces the text from the first to the last operand of a chain (C119 `range_broken`): `x && (x.a && y)` becomes
  `x?.a && y)` by itself, which does not parse.
- no-unnecessary-condition, optional chains (C120): `e?.[i]?.x` is judged by the element type although `e[i]?.x` is not (`guarded_index`; typescript-eslint skips both); a private name (`x?.#p?.q`) is looked up by its text, so that in a class with a string index signature the index decides, also if `#p` is optional; a call is not judged if the first overload returns something nullish, whichever is called (`plain_call_iff`).
- prefer-optional-chain (C112): an operand that may not begin an OR chain (`a.c === b`) is only passed over at the very beginning; after an unrelated operand it begins a chain (`badStart_later`).
- Snapshot files (C124): a content with a line that ends in `---` (for example a comment in the code it shows) is cut off there when it is read again (`dashes_lost`), so that the next run fails.
- prefer-string-starts-ends-with (C126): `staticString`, `getNullishKind` and `parseRegExp` follow variables to their initialisers without remembering where they were: `var x = x; s[0] === x` or `var r = r; r.test(s)` recurses until the stack overflows, which ends the process (`hazard_self`, `endless_iff`). They also follow `let` and `var` that are assigned to later (`hazard_assigned`); prefer-regexp-exec and prefer-find do neither.
* no-unnecessary-template-expression decides about parentheses only if the parent is an expression: ``const s = `${a, b}` `` becomes `const s = a, b`, ``{ p: `${a, b}` }`` gets a shorthand property, and the type ``` `${A | B}`[] ``` becomes `A | B[]` (`C129_hazard_parent`). A template directly after a keyword is glued to it: ``return`${x}` `` becomes `returnx` (`C129_hazard_keyword`).
* strict-void-return compares a static member with the instance members of the types its class extends or implements (the model of C128 has no notion of `static` because the rule has none), and never checks an object method with a computed name although `getMemberName` has code for it.
* Snapshot annotations take columns from the scanner (UTF-16 units) but look for tabs by bytes: in `é⇥1` the marks of `1` begin in column 2 instead of 5 (`C130_hazard_columns`).
* no-unnecessary-type-arguments takes `interface J extends I<number>` for a value (the check looks for an interface one level too low, `isInTypeContext`): with `interface I<T = string>` and `declare const I: new <T = number>() => …` the argument is reported, although the default that counts is `string` (`C76_hazard_interface`).
* prefer-string-starts-ends-with follows initialisers of variables without remembering where it was (`staticString`, `getNullishKind`, `parseRegExp`): `var a = a; s[0] === a` and `const a = b, b = a; a.test(s)` recurse until the stack overflows, which ends the whole process (`C131_hazard_circular`: exactly circular initialisers do this). It also follows variables that are not constant (`C131_hazard_let`).
* related-getter-setter-pairs does not pair `get 'x'()` with `set x(v)`, nor `'x'` with `"x"`, nor `1` with `[1]`, although they are the same property: `GetNameFromMember` treats literals only in brackets (`C67_hazard_quoted`).
- prefer-includes rewrites `/ab/.test(...xs)` to `(...xs).includes('ab')`, which is a syntax error (C56_hazard_spread), and follows `let` variables whatever has been assigned to them since (C56_hazard_let).
- `HasCommentsInRange` sees only the comments before the first token of the range (C132_hazard_behind), so a caller asking about a whole expression is told about the comments in front of it only.
- unbound-method passes over `const { 'm': f } = o` and over the inner pattern of `({ a: { m } } = o)` (C77_hazard_names).
* `no-unnecessary-condition`: for `interface O { a?: object; [n: number]: object }` and `K extends "a" | number`, `if (o[k])` is judged by the number index type
  and reported as always truthy although `o.a` may be undefined (C137_hazard_mixed).
- require-await's suggestion decides whether a semicolon is needed from the text before the whole member but writes it where `async` was: `class A { x = 1\\n static async [k]() {…} }` becomes `static ;[k]() {…}`, a field called `static` and an instance method (C138_hazard_modifiers). After a comment the semicolon can be a syntax error in an object literal (`({ a: 1, /* b */ async [k]() {…} })`, C138_hazard_comment), although the code says a semicolon too many is "always safe", or be missing (`f // g();\\nasync () => {…}`, C138_hazard_hidden).
- prefer-regexp-exec's fix copies `new C` without arguments unparenthesised: `s.match(new RegExp)` becomes `new RegExp.exec(s)`, which tries to construct `RegExp.exec` (C139_hazard_new). The suggestion `… satisfies T` of no-unnecessary-type-conversion gets no parentheses below `typeof`, `void` and `delete` (`void String(x)` becomes `void x satisfies string`, read as `(void x) satisfies string`) or before a non-null `!`, because these parents are not in the list of kinds (C139_hazard_typeof, C139_hazard_nonNull).
- no-misused-spread listens to calls but not to `new`: `new C(...text)` is never reported although `f(...text)` is (C140_hazard_new). A rest element in the head of a loop (`for ([...a] of b)`) or in a nested pattern with a default value (`[[...a] = b] = c`) is checked as if it were spread (C140_hazard_loop, C140_hazard_default): the traversal calls only the left side of a plain assignment a pattern. Spreads in computed names of patterns are never checked (C140_hazard_name).
- GetFunctionHeadLoc returns, for an arrow function, the range of the arrow with the white space and comments before it, and for a method whose modifiers are all decorators a range that begins with the first decorator; with another modifier the decorators are left out (C141_arrow, C141_hazard_decorator).
- prefer-readonly-parameter-types does not listen to setters: `set x(a: string[])` is never reported, though typescript-eslint reports it and the same parameter of a method is (C143_hazard_setter).
- prefer-return-this-type does not look through parentheses: in `class C { f = ((): C => this) }` the function is never checked (C86_hazard_parens); typescript-eslint, whose trees have no parentheses, checks it.
'''
