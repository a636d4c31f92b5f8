# Formal model of cypher-go-dsl

The Go package `cypher` (in `/repo`) builds Cypher query texts through a fluent API.  The model is a set of Lean 4
modules under `lean/Verif/`, written function by function from the Go text.  The Go code was read and never run.

Conventions:

* every definition that models code cites its file and lines in `/repo`; `tools/citations.py` checks that the cited
  files and lines exist, `tools/coverage.py` lists the Go functions that no citation covers;
* files named `Props*.lean` hold the property theorems (`Cxx_…`), with a concrete case (`example`) beside each;
  files named `*Spec.lean` hold what the properties are stated with, independent of the model (readers of Cypher
  tokens, grammars, layouts); files named `*Lemmas*.lean` hold helper lemmas;
* a property that is false of the code is kept as stated in `properties.jsonl`; a theorem `Cxx_<what>` proves the
  negation with a witness, and a theorem ending in `_partial` proves it for the cases where it holds;
* `MANIFEST.json` is generated by `tools/manifest.py` from the theorem names and `tools/notes.json`.

## Layers of the model

1. **Text** (`Text.lean`).  Go strings as `List Char`, `strings.TrimSpace`, `strings.ReplaceAll`, `strconv.Itoa`.
   `unicode.IsLetter`, `IsDigit`, `IsSpace` are an abstract structure with the few laws that are used (their values on
   ASCII); theorems hold for every such structure.
2. **Tokens** (`Lexical.lean`, spec `LexSpec.lean`, proofs `LexLemmas.lean`, properties `PropsLexical.lean`).
   Escaping of strings and names, number literals, parameters.  The specification is a set of small readers that read
   one Cypher token from the front of a text.
3. **Renderer** (`Renderer.lean`, spec `RenderSpec.lean`, `RenderLemmas.lean`, `OccLemmas.lean`, `PropsRender.lean`).
   `accept` of a type is modelled as the list of events it sends (`enter v`, `leave v`, raw text); this is faithful
   because every `accept` calls the visitor unconditionally.  `step` is the state machine of `cypher_renderer.go`
   (visited stack, alias stack, level counter, separator map, skip flag, name memory, alias memory, output).
   `den` is a compositional reading of a tree with two memories (defined aliases, described nodes).  The machine
   refines the reading (C07); the rendering properties are corollaries.  `PropsKeys.lean`: what the keys do (C55, C56).
4. **Values** (`Value.lean`, `Methods.lean`, `Cond.lean`).  What every `Expression`, `Condition`, `PatternElement` has in
   common: key, error, `isNotNil`, dynamic type, the tree it shows.  And/Or/Xor/Not with the flattening of
   `compound_condition.go` and the stale copies that `ConditionContainer` keeps.  Grammars of Boolean and arithmetic
   expressions: `CondSpec.lean`, `ArithSpec.lean`; proofs `CondLemmas*.lean`, `ArithLemmas.lean`; properties
   `PropsCond.lean`, `PropsArith.lean`.
5. **Constructs** (`Exprs.lean`, `Patterns.lean`, `Clauses.lean`).  Each constructor with its error checks, and the tree
   that its `accept`/`enter`/`leave` show.  Specs `ExprSpec.lean`, `PatternSpec.lean`, `ClauseSpec.lean`,
   `LayoutSpec.lean`: a layout is a list of texts and shown parts; properties read "constructor applied to parts shows
   as this layout".  Properties `PropsExprs.lean`, `PropsExprs2.lean`, `PropsPatterns.lean`, `PropsClauses.lean`.
   `Shortcuts.lean`, `PropsShortcuts.lean`: the functions that only combine others (temporal functions, raw lists,
   shortcut methods of nodes and relationships).
6. **Builders** (`Builder.lean`).  The fluent builder as a state machine: one state per Go builder type, one step per
   method, outcomes `ok`, `panic`, `diverges`.  `Interfaces.lean`: which methods the returned Go interface types allow after
   which, so that a theorem about "every sequence of calls" means every sequence that compiles.  Specs
   `BuilderSpec.lean`; proofs `BuilderLemmas/Steps/Text/Errors.lean`; properties `PropsBuilder.lean`, `PropsWhere.lean`,
   `PropsErrors.lean`.
7. **Slices** (`Slices.lean`, `SliceLemmas.lean`, `PropsForks.lean`).  Go slices as windows on backing arrays in a heap,
   with `append` for any growth of capacity, for conditions and chains; `CaseMem.lean`, `PropsCaseForks.lean` for CASE.  `BuilderMem.lean`: the whole builder with its
   slices (clauses, parts, actions of MERGE, returned expressions, sort items) and the pointers between builders; statements
   keep slices, so they can change after `Build()`.  `BuilderMemLemmas/Exec/Calls/Build/Lines.lean` show that every method does
   in memory what it does on values (`Builder.lean`), and what it can write; `PropsBuilderForks.lean` has the properties of
   programs that use builders more than once.  A method that panics is taken to leave the memory unchanged, and the program (or
   what is done with this builder) ends.
8. **Everything a program can make** (`ApiSpec.lean`, `ApiLemmas*.lean`, `BracketSpec.lean`, `BracketLemmas.lean`,
   `PropsBrackets.lean`).  An inductive predicate `Api` that closes the modelled constructors, methods and builder
   calls; used for properties of all statements (C40).

## Trusted base

* Lean 4.33.0's kernel.  No axioms of our own; each property theorem depends at most on `propext`,
  `Classical.choice`, `Quot.sound` (`vcheck` checks this).
* The hand translation from Go to Lean.  As a check of it, the 220 tests of the package are replayed in the model:
  `Replay.lean` gives the model the names of the Go API, `tools/replay.py` translates the tests line by line
  (`ReplayTests1.lean` … `ReplayTests4.lean`, 210 tests), the rest is translated by hand (`ReplayTests5.lean`; two tests compare
  nothing).  Every text that a test expects is what the model prints, but for two tests of the root package that contradict other tests
  of the package and the code: `TestCountInReturnClause` expects `Count(u)` (built_in_function.go:87 names the function `count`), `TestGh48` expects
  the keys of a map between backquotes (they are escaped only if necessary).
* Assumed of the runtime: `fmt.Sprintf("%p", &x)` yields pairwise different non-empty strings for different objects
  (`getAddress`, support.go:26).  The Go code does not keep those objects alive, so after a garbage collection an
  address can come back; the model's keys are abstract and the theorems say exactly where distinctness is needed.
* `math/big` (`big.Float`, `Text('g', 10)`) for number literals is modelled by exact decimal arithmetic with rounding half
  to even at ten digits (`Lexical.lean`, `Floats.lean`).  A `float64` is its sign, mantissa and exponent, or Inf or NaN.
* Mathlib is imported in `FloatSpec.lean` (rational numbers) for the statements of C51 and `C06_closest`, and for numbers in C52.
* `ReadSpec.lean` and `StmtSpec.lean` are our transcription of the openCypher grammar of expressions, patterns and statements,
  restricted to the constructs of C52 to C54.

## What is not modelled

* Invalid UTF-8 in strings, but for the functions that look into strings (C85: literals, names, parameters, trimming); goroutines (but for calls of Render at the same time, C83); the text of error messages (only which error).
* What a value with an error prints, if it is printed at all, outside RETURN and `ListOf` (C75).  Nearly every construct refuses such a part.
  Comprehensions (list, pattern, definition) do not look; theorems about their texts ask for parts without errors.
* How Go rounds the source text of a number to a `float64`.
* Getters that no modelled code calls (`GetContent`, `getConditionType`, `isUpdatingClause`, …), type markers
  (`IsPatternElement`, …).  Nil passed as `Expression`, `PatternElement`, `Condition` or `Statement` is modelled apart
  (`NilArgs.lean`, C72) for the functions and methods named there.
* `tools/coverage.py` prints the rest; it is `GetError`, `getKey`, `isNotNil` (fields of the model's values),
  `accept`/`enter`/`leave` that do nothing, and `…Error` constructors (a value with only an error).
* `tools/reach.py` lists the definitions of the model that no statement of a property theorem depends on: only definitions used in proofs
  (`slice`, `Compat`, `modifies`) and the second halves of mutual recursions, which the compiler hides behind the first.

## Plan per property

| id | modelled | how |
|----|----------|-----|
| C01 | escapeStringLiteral, AsString | round-trip with a string-literal reader, any suffix |
| C02 | escapeName | round-trip with a back-quote reader |
| C03 | EscapeIfNecessary, isIdentifier | round-trip with a name reader; partial: white-space-only names (negation shown) |
| C04 | same | injectivity |
| C05 | ParameterCreate | recursion characterised; token claim partial (negation shown) |
| C06 | NumberLiteral through big.Float.Text('g',10) for integers | decimal reader; partial below 10^10; beyond, the exact loss and: the closest ten-digit number |
| C07 | renderer state machine | refinement by induction over trees, any history |
| C08 | separators | corollary of C07 for all list constructs |
| C09, C12 | Node.enter/leave, skip flag | corollary of C07; negation for list literals and unescaped names |
| C10, C11 | alias memory | corollary of C07; negation for two aliases of one expression |
| C13 | Render with shared maps | partial: statements without names/aliases, and statements sharing no named node or aliased expression with earlier ones (PropsReuse.lean: memories that agree on the keys of a tree give the same text; only marks are remembered); negation |
| C14, C15 | Render | direct |
| C16, C17, C18 | CompoundCondition, ConditionContainer | precedence reader on token lists, unique reading, three-valued meaning; partial and negations |
| C19, C20 | Operation, Comparison | unique reading by a precedence reader; partial (no nested power) and negation |
| C21-C24, C43-C45 | expressions | layouts; readers for lengths and maps; negations for lost errors |
| C26-C29, C46 | patterns | layouts; readers for relationship arrows and lengths |
| C25, C35-C38, C41, C42, C47 | clauses, unions, subqueries, SET, procedures, functions, MERGE | layouts |
| C30, C31 | builders | refinement: the text of a call sequence is the sequence of the clauses' layouts; the interfaces allow nothing but that and the listed gaps; `C30_programs_partial`, `C30_call_programs_partial` (`PropsCovers.lean`): the same for chains of calls that are admitted |
| C32, C33 | updating builders | negations for every list, partial for one pattern |
| C34 | error flow through builders | a state once tainted stays tainted, for all call sequences; negations for each unchecked argument |
| C39 | slices, pointers between builders | heap model; conditions, chains: each backing array has one owner; builders: simulation of the value model, frame conditions for what a call may write, for programs that fork depth first and for programs with variables in any order; negations when a value is used twice |
| C40 | everything (`Api`) | a scanner that skips strings and back-quoted names follows the brackets and stops at comments and semicolons; by induction over `Api` |
| C48-C50 | shortcuts | layouts; negations |
| C51 | NumberLiteralCreate2 through big.Float.Text('g',10), percentile functions | reader of numerals into ℚ; closest ten-digit number, exact iff ten digits suffice; negations |
| C52 | all expressions | `ReadSpec.lean`: an independent reader of Cypher expressions (words, precedence of both grammar versions) into any `Meaning`; `DenoteSpec.lean`: one rule per call for what it means; induction over the rules shows that the text reads as the meaning; reading is unique; negations.  Patterns in expressions (`PatMeansSpec.lean`): the rules for patterns are parametrised by the rules for the expressions in them, and `frozenL` is the tree as it is shown with the memories of that point of the statement.  Functions that only combine others (dates, time zones, numbers, raw lists) follow from the rules, `PropsReadShortcuts.lean` |
| C53, C54 | all patterns and statements | `StmtSpec.lean`: syntax trees and an independent reader of patterns, clauses, subqueries and unions on the words of `ReadSpec.lean`; `MeansSpec.lean`: what the calls mean, with the memories of aliases and described nodes; the text of every part is followed by induction (`PatternReadLemmas`, `RelReadLemmas`, `ClauseReadLemmas`, `ChangeReadLemmas`, `StatementReadLemmas`); reading is unique; negations |
| C55 | renderer state machine | simulation between two runs whose keys differ by an injective map; negations for addresses that come back |
| C56 | renderer, `As` | the aliases known at a place come from the constructs before it, by induction over trees; negations for methods that keep the key of their receiver |
| C57-C60 | names, parameters, integers, arithmetic | equivalences: the round trips of C03, C05, C06, C19 hold exactly for the stated arguments; for arithmetic the tree Cypher reads is computed and compared by counting operands |
| C61 | conditions (`CondExact.lean`) | the conditions of a combination are a row with operators; read from left to right it always has the meaning of the calls; Cypher reads by precedence; both agree in the free associative logic exactly if the operators bind weaker and weaker |
| C62 | CASE, all call sequences (`PropsExactCase.lean`) | induction from the end: state after the calls is determined by the calls since the last error |
| C63 | all chains of builder calls that type-check (`PropsTyped.lean`) | invariant on the builder's state per interface, kept by every call; provisos shown needed by concrete chains |
| C64 | all queries that type-check (`PropsSettle.lean`) | invariant with a clause that waits, generalising that of C30; `settle` gives the order; permutation and exact condition for the order being kept; `C64_reads` (`PropsSettleRead.lean`): the text reads, with the reader of C54, as the clauses in that order; `C64_programs`, `C64_call_programs` (`PropsCovers.lean`): chains of calls that are admitted are parsed into queries, by induction over what may belong to each clause |
| C65 | all argument lists (`PropsSetExact.lean`) | C37 for the arguments in the order in which they are used; the call itself is shown to be the same at every builder; `written` reads the arguments from left to right |
| C66 | all operands (`Leftovers.lean`, `PropsLeftovers.lean`) | the text of each by its structure; negation for `OperationCreate1`, whose checks are inverted |
| C67 | all chains of builder calls that type-check (`PropsErrorsExact.lean`) | one direction: a reported error taints the state for good (lemmas of C34), where the kind of builder follows from the interface; other direction: the invariant of C63 with conditions that may carry errors if they count as nil |
| C68 | `unionImpl`, `unionQuery` (`PropsUnion.lean`) | induction over nested requests, with an invariant that says what an accepted or rejected union holds (its flat list of queries, or nothing) |
| C69 | renderer and statements (`PropsScope.lean`) | partial for parts that have nothing in common (memories that agree on the keys of a tree give the same text, nothing but marks is remembered); negations |
| C70 | renderer state machine (`PropsOpaque.lean`) | every step of the machine commutes with the replacement; induction over the calls |
| C71 | builder, constructors (`PropsFirstError.lean`) | invariant of a builder that remembers an error, for every type of builder; exact condition for nil pointers; negations |
| C72 | constructors, builder with nil arguments (`NilArgs.lean`, `PropsNil.lean`) | cases; agreement with the model without nil; negations |
| C73 | constructors and methods of nodes, relationships and chains (`PropsPatternCalls.lean`) | invariant over the sequence of calls, splitting it at the last failure |
| C74 | `OrderB` with `accept` of sort items, RETURN and WITH (`ResultAccept.lean`, `PropsResults.lean`) | induction on the ordering calls |
| C75 | `ZeroValues.lean`: `accept` of every type with zero fields; RETURN and ListOf over mixed arguments | cases on the type, induction on the arguments |
| C76 | `Slices.lean`: slices with shared arrays; uses one after the other | invariant of the array and the capacity; induction on the uses |
| C77 | `Slices.lean`: chains in memory; any program, then any calls on one chain | invariant of the array, the capacity and the results; induction on the calls |
| C78 | `CaseMem.lean`: cases in memory; any program, then any uses of one case | invariant of the array, the capacity and the results; induction on the uses |
| C79 | `Leftovers.lean`: `MapV`, `AliasedV`, `functionInvocationPatterns` | layouts; cases of errors |
| C80 | `BuilderLive.lean`: `Use.live`, over `BuilderMem.lean` | simulation: an invariant of the memory under any uses (`Stay`), by induction on programs |
| C81 | `PropsInjection.lean`: places are marked by characters without other use | the reader of `ReadSpec.lean` follows the text of the statement with places and the filled one in step (induction on words, with the lookahead of numbers); `trimSpace` commutes with filling |
| C82 | `BuilderMem.lean`; `Spec.goOns`, `Spec.inTheEnd` in `PropsContinuations.lean` | every such call appends closed clauses one by one (`Pushes`); a lemma on slices says what a slice made by appending reads after others were appended to the same slice; induction on the continuations |
| C83 | `Renderer.lean`; `Spec.World`, `Spec.World.turn` in `PropsTogether.lean`: the maps belong to the renderer, everything else to the call | a projection lemma: a renderer and its calls depend only on the turns of these calls; then induction on the steps of a call and on the calls of a renderer |
| C84 | `Renderer.lean`; `Spec.OneObject` in `PropsObjects.lean` | one object per address gives the table of aliases that C07 needs; that nothing contains itself follows by the sizes of the trees |
| C85 | `Bytes.lean` with Go's `utf8.DecodeRuneInString`, `DecodeLastRuneInString` and `strings.TrimSpace` on bytes; readers of literals and names on bytes in `PropsBytes.lean`; rendering on bytes in `PropsBytesRender.lean` | induction over bytes; the decoder inverts Lean's `String.utf8EncodeChar`, and what it decodes without U+FFFD is an encoding |
| C86 | `PropsNames.lean`: places for names, the words of a text with the reader of `ReadSpec.lean` | induction over the tokens; filling is a homomorphism on texts, so that C70 carries it through the renderer |
| C87 | `Literals.lean`: literals as a tree, their `AsString()` and the expressions they are; `PropsLiterals.lean` | induction over the literal; reading with C52, different texts with a meaning whose values are the data |
| C88 | `PropsMemory.lean`: the constructs that are shown, with whether they are abbreviated, for the memories of C07 | memories on top of older ones; induction over the trees up to the first difference |
| C89 | `PropsFollow.lean`: the interfaces of C30, chains of calls of any length | every interface is reached by a chain; case analysis over interfaces and pairs of calls; invariants over chains |

## Where the theorems are

* `PropsArith` C19, C20, C43
* `PropsBrackets` C40
* `PropsBuilder` C25, C30, C45
* `PropsBuilderForks` C39
* `PropsBytes` C85
* `PropsBytesRender` C85
* `PropsCaseForks` C39
* `PropsCaseUses` C78
* `PropsChainForks` C77
* `PropsClauses` C25, C35, C36, C37, C38, C42, C47
* `PropsCond` C16, C17, C18
* `PropsContinuations` C82
* `PropsErrors` C34
* `PropsErrorsExact` C67
* `PropsExact` C57, C58, C59, C60, C61
* `PropsExactCase` C62
* `PropsExprs` C21, C22, C23, C24, C41
* `PropsExprs2` C10, C43, C44, C45
* `PropsFirstError` C71
* `PropsFloats` C06, C51
* `PropsForks` C39
* `PropsForksExact` C76
* `PropsInjection` C81
* `PropsKeys` C11, C55, C56
* `PropsLeftovers` C66
* `PropsLeftovers2` C79
* `PropsLexical` C01, C02, C03, C04, C05, C06
* `PropsLiterals` C87
* `PropsLive` C80
* `PropsMemory` C88
* `PropsFollow` C89
* `PropsNames` C86
* `PropsNil` C72
* `PropsObjects` C40, C84
* `PropsOpaque` C70
* `PropsPatternCalls` C73
* `PropsPatterns` C26, C27, C28, C29, C41, C46
* `PropsRead` C52
* `PropsReadPatterns` C52
* `PropsReadShortcuts` C52
* `PropsRender` C07, C08, C09, C10, C11, C12, C13, C14, C15
* `PropsResults` C74
* `PropsReuse` C13
* `PropsScope` C69
* `PropsSetExact` C65
* `PropsSettle` C64
* `PropsSettleRead` C64
* `PropsCovers` C30, C64
* `PropsShortcuts` C48, C49, C50
* `PropsStatements` C53, C54
* `PropsTogether` C83
* `PropsTyped` C63
* `PropsUnion` C68
* `PropsWhere` C31, C32, C33
* `PropsZero` C75

`ReplayTests1` to `ReplayTests5` hold the replayed tests; every other module holds definitions or lemmas of the layer its name begins with.

## Defects found in the code (each proved as a negation)

| theorem | what goes wrong |
|---|---|
| C03_blank_name_not_readable | a name of only white space is printed as nothing |
| C05_parameter_not_escaped | parameter names are never escaped |
| C06_int_literal_lossy | integers from 10^10 on lose digits |
| C09/C12_list_property_leaks, C10_list_literal_leaks | `accept` of a list literal ignores the skip flag |
| C12_name_not_escaped | a repeated node prints its name unescaped |
| C11_two_aliases, C11_hidden_alias | an alias is referred to without being defined |
| C13_reuse_node, C13_reuse_alias | a renderer remembers nodes and aliases of earlier statements |
| C69_union_label_lost, C69_union_alias_undefined, C69_subquery_label_lost, C69_with_label_lost, C69_with_alias_undefined | a node used again in another query of a union, in a subquery or after a WITH loses its labels and properties; an alias is used where it is not defined |
| C69_same_clause, C69_shared_true | an alias is used in the list of items that defines it; all calls of LiteralTrue return one object, so aliasing one aliases all |
| C71_args_hidden, C71_delete_hidden, C71_crashes | an error of procedure arguments, or of Delete after SET, is hidden by a later error; after an error some chains of calls end in a nil pointer instead of the error |
| C72_call_panics, C72_patterns, C72_render_panics, C72_where_nil, C72_where_vanishes, C72_deletes_everything | nil panics in lists, functions, DELETE, SET, WITH; at rendering in RETURN, MATCH, UNWIND, ORDER BY; `Where(nil)` is no condition, and `And(nil)` removes the whole WHERE without an error, so that DELETE deletes everything matched |
| C73_lost | a failed call on a relationship or node is forgotten by the next call, and with it what was said before: nodes, direction, types, labels |
| C74_lost | an error of a sort item makes the whole ORDER BY vanish (`OrderBySortItem(Sort(bad))`), or only itself (`OrderBy(bad)`), or makes rendering panic (`OrderBy(bad).Descending()`); `Build` reports none of them |
| C75_lost | after an updating clause `Returning(AParam(""))` prints `RETURN $`, and a failed property makes `Render` panic; after a reading clause both are reported |
| C77_texts | of a chain of three relationships, two extensions end up as the second one, with the name given between the two |
| C78_texts | of a case with three branches, two uses end up as the second one; if the THEN of the second has an error, the first can no longer be rendered |
| C16_misread, C18_stale | AND/OR combinations lose their grouping |
| C19_power | `a ^ (b ^ c)` is printed without parentheses |
| C21_*, C24_*, C25_*, C26_*, C34_lost_*, C44_*, C45_*, C46_* | errors that are lost; see the theorems |
| C23_unsupported | values of unsupported types recurse for ever |
| C25_with_skip | after SKIP of a WITH the returned interface has no methods |
| C27_last_node_lost | chains that lose their last node |
| C29_labels_lost, C29_renamed_labels_lost | labels after the first are lost by NewNodeWithLabels and by Named |
| C30_* | clauses printed in another order than the calls |
| C31_* | WHERE lost or attached elsewhere, And/Or that panic |
| C32_only_first | CREATE and MERGE keep only the first pattern |
| C33_distinct_dropped | DISTINCT dropped after SET and REMOVE |
| C35_nested_mixed | UNION and UNION ALL mixed |
| C36_union | a union without RETURN is accepted as subquery |
| C37_reordered, C37_computed_value | SET assignments in another order, or not paired |
| C38_parts, C38_namespace_lost | only the last part of a procedure's name is printed |
| C39_* | forked conditions, chains and CASE expressions overwrite each other |
| C39_builders_* | builders used twice: a WHERE that moves to the other statement, clauses, sort items and SETs that are added to a statement that was built before |
| C40_* | unescaped names break the bracket structure, begin comments or end the statement |
| C41_collectDistinct, C41_temporal | CollectDistinct drops DISTINCT; functions without arguments can not be called |
| C43_argument_dropped, C43_* | operators that drop an operand |
| C45_as_condition_after_with | AsCondition drops what is before a WITH |
| C47_unwind_unescaped | the variable of UNWIND is not escaped |
| C48_*, C49_* | dates and raw sort items; see the theorems |
| C51_lossy, C51_whole_number, C51_no_number | number literals keep ten digits, `2.0` becomes the integer `2`, infinity and NaN |
| C52_condition_operand, C52_power_operand, C52_power_access, C52_power_test, C52_membership_list, C52_keyword_names | operands that need parentheses, and names that need back-ticks, do not get them |
| C53_known_node_misread, C54_unwind_injected | names that are not escaped read as labels or as further clauses |
| C66_operation_refused, C66_operation_accepted | `OperationCreate1` has its checks inverted: it refuses everything that is there |
| C64_changed, C64_reads_moved | clauses that the builder puts down late change places with later ones; RETURN DISTINCT after SET is lost |
| C55_address_reused, C55_address_reused_alias | a node or an expression made at the address of one that was collected is shown as the other one |
| C84_shared | a condition extended with `And` by an alias of itself: the closing bracket and the separator after it are lost |
| C56_condition, C56_case | a condition (CASE) that extends an aliased one is shown as its alias |
