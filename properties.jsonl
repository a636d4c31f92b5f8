{"id": "C01", "title": "String literals cannot be broken out of", "statement": "For every string s, the text rendered for the literal s is read back by Cypher's string-literal rules as exactly s, and the literal ends exactly at its own closing quote whatever text follows it in the query; hence two different strings never render to the same text.", "quantifier": "all strings s and all following query texts", "why_tests_cant": "The set of strings and contexts is infinite; an injection hides in one untested combination of quotes and backslashes.", "anchors": ["string_literal.go:escapeStringLiteral", "string_literal.go:StringLiteral.AsString"]}
{"id": "C02", "title": "Labels and relationship types are always safely back-quoted", "statement": "For every non-empty label or relationship type, the rendered text is a back-quoted Cypher name that reads back as exactly that string and ends at its own closing back-quote, for any following text that does not itself start with a back-quote.", "quantifier": "all strings and all following texts", "why_tests_cant": "Infinite strings; adversarial back-quotes.", "anchors": ["cypher_renderer.go:escapeName", "node.go:NodeLabel.enter", "relationship_type.go:RelationshipTypes.enter"]}
{"id": "C03", "title": "Names are escaped whenever needed", "statement": "Every variable name, property key, map key and alias is rendered either unchanged as a plain Cypher identifier or back-quoted, and in both cases reads back as exactly the given name.", "quantifier": "all non-empty strings", "why_tests_cant": "Infinite strings, all of Unicode. (False for names made only of white space.)", "anchors": ["cypher_renderer.go:EscapeIfNecessary", "cypher_renderer.go:isIdentifier"]}
{"id": "C04", "title": "Different names never collide in the query text", "statement": "Two different names (variables, labels, keys, aliases) never render to the same text.", "quantifier": "all pairs of strings", "why_tests_cant": "Pairs of strings: infinite.", "anchors": ["cypher_renderer.go:EscapeIfNecessary", "cypher_renderer.go:escapeName"]}
{"id": "C05", "title": "Parameter names", "statement": "A parameter built from a name renders as one dollar sign followed by the name with all leading dollar signs removed; it is an error exactly when nothing is left; adding more leading dollar signs changes nothing; and the rendered text is a legal Cypher parameter token.", "quantifier": "all strings", "why_tests_cant": "Infinite strings. (The token claim is false for names that are not identifiers: they are not escaped.)", "anchors": ["parameter.go:ParameterCreate", "parameter.go:Parameter.enter"]}
{"id": "C06", "title": "Integer literals keep their value", "statement": "The text rendered for an integer literal is a decimal integer numeral denoting that integer.", "quantifier": "all 64-bit integers", "why_tests_cant": "2^64 inputs. (False from 10^10 on: exponent form with ten significant digits.)", "anchors": ["number_literal.go:NumberLiteralCreate1", "number_literal.go:NumberLiteral.AsString"]}
{"id": "C07", "title": "Rendering is compositional", "statement": "The text rendered for a statement is the concatenation, in visiting order, of the opening text, the parts and the closing text of each construct, with only three context effects: list separators, repeated named nodes and already defined aliases; no construct's text depends on anything else that was rendered before it or around it.", "quantifier": "all statement trees with any nesting", "why_tests_cant": "Trees are unbounded and the renderer is a mutable state machine with stacks, levels and maps.", "anchors": ["cypher_renderer.go:CypherRenderer.enter", "cypher_renderer.go:CypherRenderer.leave", "cypher_renderer.go:PreEnter", "cypher_renderer.go:postLeave"]}
{"id": "C08", "title": "Lists are comma separated", "statement": "Every list construct (patterns, return items, function arguments, map entries, sort items, yield items, procedure arguments) renders its elements in order with exactly one ', ' between two neighbours and none before the first or after the last, at every nesting depth.", "quantifier": "all lists of all lengths of arbitrarily nested elements", "why_tests_cant": "Unbounded lengths and nesting.", "anchors": ["cypher_renderer.go:PreEnter", "cypher_renderer.go:postLeave", "expression_list.go", "pattern.go", "order.go", "yield_items.go", "arguments.go", "visitable_list.go", "map_expression.go"]}
{"id": "C09", "title": "A named node is described once", "statement": "The first occurrence of a named node in a statement renders its name, labels and properties; every later occurrence of the same node renders only its name in parentheses.", "quantifier": "all statements in which a node occurs any number of times at any place", "why_tests_cant": "Unbounded statements. (False if the node has a list-literal property or a name that needs escaping: see C12.)", "anchors": ["node.go:Node.enter", "node.go:Node.leave", "node.go:Node.accept"]}
{"id": "C10", "title": "An alias is defined once and then referred to", "statement": "The first occurrence of an aliased expression renders the expression followed by AS and the alias; every later occurrence of the aliased expression, or of the expression itself, renders only the alias.", "quantifier": "all statements and occurrences", "why_tests_cant": "Unbounded statements.", "anchors": ["alias_expression.go:AliasedExpression.enter", "alias_expression.go:AliasedExpression.leave", "cypher_renderer.go:getAliasedIfSeen"]}
{"id": "C11", "title": "Every alias used in a query is defined in it", "statement": "If an alias occurs in the rendered text, the text also contains its definition.", "quantifier": "all statements", "why_tests_cant": "Unbounded statements. (False: giving one expression two aliases renders the second alias without definition.)", "anchors": ["alias_expression.go:AliasedExpression.enter", "cypher_renderer.go:leave"]}
{"id": "C12", "title": "Repeated nodes render to well-formed patterns", "statement": "Every occurrence of a named node after the first renders to '(' its escaped name ')'.", "quantifier": "all named nodes, including those with list-valued properties and names needing escapes", "why_tests_cant": "Unbounded node contents. (False: list literals print their separators even when skipped, and the name is not escaped.)", "anchors": ["node.go:Node.enter", "list_literal.go:ListLiteral.accept"]}
{"id": "C13", "title": "A renderer can be reused", "statement": "Rendering a statement twice with one renderer yields the same text as rendering it with a new renderer each time.", "quantifier": "all statements and all histories of earlier Render calls on the renderer", "why_tests_cant": "Histories are unbounded. (False when named nodes or aliases occur: the renderer's memory survives.)", "anchors": ["cypher_renderer.go:Render", "cypher_renderer.go:NewRenderer"]}
{"id": "C14", "title": "Rendered queries are trimmed and nothing else is lost", "statement": "The rendered query neither starts nor ends with white space, and differs from the concatenated clause texts only by removed outer white space.", "quantifier": "all statements", "why_tests_cant": "Unbounded texts.", "anchors": ["cypher_renderer.go:Render"]}
{"id": "C15", "title": "Errors are returned instead of text", "statement": "Rendering nil or a statement that carries an error returns that error and the empty string; otherwise it returns no error.", "quantifier": "all statements", "why_tests_cant": "All statements and errors.", "anchors": ["cypher_renderer.go:Render"]}
{"id": "C16", "title": "Combined conditions mean what was written", "statement": "For conditions combined with And, Or and Xor in any nesting, the rendered text, read with Cypher's precedence rules, has the truth value of the combination that was called, for every truth assignment of the atoms.", "quantifier": "all nestings of And/Or/Xor/Not over all atoms and all truth assignments", "why_tests_cant": "Nestings are unbounded and the flattening rule depends on operands. (False: (a OR b).And(x OR y).)", "anchors": ["compound_condition.go:CompoundCondition.add", "compound_condition.go:accept", "condition_container.go", "condition_builder.go"]}
{"id": "C17", "title": "The empty condition is neutral", "statement": "Combining the empty condition with a condition on either side renders exactly the other condition; combining conditions with an empty one never adds text.", "quantifier": "all conditions and combinators", "why_tests_cant": "All conditions.", "anchors": ["conditions.go:NoCondition", "compound_condition.go:CompoundConditionCreate1", "compound_condition.go:EMPTY_CONDITION"]}
{"id": "C18", "title": "Negation negates the whole condition", "statement": "c.Not() renders to NOT applied to all of c.", "quantifier": "all conditions built by any history of And/Or/Xor calls", "why_tests_cant": "Unbounded histories. (False for compound conditions extended after creation: the stored snapshot is stale.)", "anchors": ["condition_container.go:Not", "compound_condition.go", "conditions.go:ConditionsNot"]}
{"id": "C19", "title": "Arithmetic keeps its grouping", "statement": "The text of an arithmetic or concatenation expression, read with Cypher's operator precedence, is the expression tree that was built.", "quantifier": "all expression trees", "why_tests_cant": "Unbounded trees. (False for nested powers: no parentheses around '^'.)", "anchors": ["operation.go:Operation.accept", "operation.go:needsGrouping", "operator.go"]}
{"id": "C20", "title": "Nested comparisons are parenthesised", "statement": "A comparison whose operand is itself a condition renders that operand in parentheses, so the reading is unambiguous.", "quantifier": "all comparisons of all operands", "why_tests_cant": "Unbounded nesting.", "anchors": ["comparison.go:nestedIfCondition", "comparison.go:Comparison.accept"]}
{"id": "C21", "title": "CASE expressions list their branches in order", "statement": "A CASE expression renders CASE, the optional subject, every WHEN/THEN pair in the order added, the ELSE if given, and END.", "quantifier": "all sequences of When/Then/Else calls", "why_tests_cant": "Unbounded sequences; value-receiver builders. (When after Else loses the Else.)", "anchors": ["case.go"]}
{"id": "C22", "title": "List access", "statement": "ValueAt and sub-list expressions render target[index], target[from..to], target[from..] and target[..to] and nothing else.", "quantifier": "all targets and bounds", "why_tests_cant": "All expressions.", "anchors": ["list_operator.go"]}
{"id": "C23", "title": "Map literals", "statement": "A map literal built from key/value arguments renders all entries in order, nil values as NULL; an odd number of arguments, a non-string key, a duplicated key or a value with an error is an error; building a map always comes back.", "quantifier": "all argument lists", "why_tests_cant": "Unbounded argument lists. (Values of other types send LiteralOf into endless recursion.)", "anchors": ["map_expression.go:NewMapExpression"]}
{"id": "C24", "title": "Map projections", "statement": "A map projection renders name{items} with each property as .key, each key/value pair as key: value, each alias as alias: expression, in order; duplicate keys are errors.  A property lookup on its own is good for projections only: it cannot be given an alias, and functions reject it as their first argument.", "quantifier": "all item lists", "why_tests_cant": "Unbounded item lists.", "anchors": ["map_projection.go:createNewContent", "property_lookup.go:PropertyLookupCreate"]}
{"id": "C25", "title": "Result clauses have the right layout", "statement": "RETURN and WITH render [DISTINCT], items, ORDER BY, SKIP, LIMIT (and WHERE for WITH) in this order, each present exactly when requested.", "quantifier": "all combinations of requests with all contents", "why_tests_cant": "Contents are unbounded.", "anchors": ["return_body.go", "return.go", "with.go", "order_builder.go"]}
{"id": "C26", "title": "Relationship direction is preserved", "statement": "A relationship from a to b always reads as an arrow from a to b, one created in reverse reads as an arrow from b to a, an undirected one has no arrow head.", "quantifier": "all nodes, types, lengths, names and properties", "why_tests_cant": "All contents.", "anchors": ["relationship.go:RelationshipCreate", "relationship_details.go:enter", "relationship_details.go:leave"]}
{"id": "C27", "title": "Chains connect consecutive nodes", "statement": "A relationship chain renders node, relationship, node, relationship, ..., node: each relationship appears once in call order between its own end nodes.", "quantifier": "all chains of all lengths", "why_tests_cant": "Unbounded chains. (False if the last node was created by the several-labels constructor: it is dropped.)", "anchors": ["relationship_chain.go:accept", "relationship_chain.go:RelationshipTo"]}
{"id": "C28", "title": "Relationship lengths", "statement": "Length, Min, Max and Unbounded render *min..max, *min.., *..max and *; no length renders nothing; the rendered bounds read back as the given integers.", "quantifier": "all integers", "why_tests_cant": "2^64 inputs each.", "anchors": ["relationship_length.go", "relationship_details.go"]}
{"id": "C29", "title": "All labels and types are rendered", "statement": "A node renders all its non-empty labels in order each with a colon; a relationship renders its non-empty types in order separated by '|' after one colon; the list reads back unambiguously.", "quantifier": "all lists of strings", "why_tests_cant": "Unbounded lists. (A type list with only empty strings renders a bare colon.)", "anchors": ["node.go:NodeLabel.enter", "relationship_type.go:enter"]}
{"id": "C30", "title": "Clauses appear in call order", "statement": "The clauses of the built statement are exactly those requested, in the order of the calls.", "quantifier": "all sequences of builder calls", "why_tests_cant": "Unbounded call sequences through several builder types sharing one mutable builder.", "anchors": ["default_statement_builder.go", "default_statement_with_update.go", "default_statement_with_with_builder.go", "default_statement_with_return_builder.go", "default_ongoing_unwind.go", "in_query_call_builder.go"]}
{"id": "C31", "title": "WHERE belongs to the clause it follows", "statement": "Conditions given by Where/And/Or after a MATCH, WITH or CALL are attached to that clause and to no other.", "quantifier": "all call sequences", "why_tests_cant": "Unbounded call sequences.", "anchors": ["match_builder.go", "condition_builder.go", "default_statement_with_with_builder.go", "in_query_call_builder.go"]}
{"id": "C32", "title": "CREATE and MERGE keep every pattern", "statement": "All pattern elements given to Create or Merge occur in the statement.", "quantifier": "all lists of pattern elements", "why_tests_cant": "Unbounded lists. (False: only the first pattern is kept.)", "anchors": ["default_statement_builder.go:getUpdatingClauseBuilder", "default_statement_with_update.go"]}
{"id": "C33", "title": "RETURN DISTINCT after an update returns", "statement": "ReturningDistinct after an updating clause yields a statement with a RETURN DISTINCT of the given expressions.", "quantifier": "all expression lists", "why_tests_cant": "All inputs. (False: the expressions are dropped.)", "anchors": ["default_statement_with_update.go:ReturningDistinct"]}
{"id": "C34", "title": "Errors are never swallowed", "statement": "If any part given to a builder carries an error, the built statement carries an error.", "quantifier": "all parts, builders and positions", "why_tests_cant": "Unbounded call sequences. (False in many constructors; partial.)", "anchors": ["compound_condition.go:add", "merge_action.go", "with.go", "return_body.go", "node.go", "match.go", "where.go"]}
{"id": "C35", "title": "UNION", "statement": "Union of n>=2 single queries renders them in order with UNION [ALL] between neighbours; extending a union appends; fewer than two statements, mixing UNION and UNION ALL or a non-single query is an error.", "quantifier": "all lists of statements", "why_tests_cant": "Unbounded lists.", "anchors": ["cypher.go:unionImpl", "union_query.go", "union_part.go"]}
{"id": "C36", "title": "Subqueries must return", "statement": "A CALL { } subquery is accepted exactly when its statement returns something.", "quantifier": "all statements", "why_tests_cant": "All statements.", "anchors": ["subquery.go", "statement.go", "single_part_query.go", "multi_part_query.go", "union_query.go"]}
{"id": "C37", "title": "SET pairs", "statement": "Set with an even number of plain expressions yields one assignment per consecutive pair in order; an odd number is an error; already built assignments are kept as given.", "quantifier": "all expression lists", "why_tests_cant": "Unbounded lists.", "anchors": ["default_statement_builder.go:prepareSetExpression"]}
{"id": "C38", "title": "Procedure names", "statement": "A procedure name given as parts renders the parts in order joined by dots.", "quantifier": "all part lists", "why_tests_cant": "Unbounded lists. (False: name-space parts are lost.)", "anchors": ["procedure_name.go", "name_space.go", "cypher.go:ACallSimple"]}
{"id": "C39", "title": "Builder values can be forked", "statement": "Using one intermediate builder value for two different continuations yields two independent statements.", "quantifier": "all builder values and continuations", "why_tests_cant": "Depends on slice capacities and sharing of backing arrays. (False: append on shared slices and shared pointers.)", "anchors": ["compound_condition.go:add", "relationship_chain.go", "default_statement_builder.go", "default_statement_with_return_builder.go", "case.go"]}
{"id": "C40", "title": "Brackets balance, no comment begins, and there is one statement only", "statement": "In every rendered statement the round, square and curly brackets outside quoted text are properly nested, every quotation mark is closed, and outside quoted text no comment (`//` or `/*`) begins and there is no semicolon, which would end the statement and begin another.", "quantifier": "all statements with arbitrary names, labels and string contents", "why_tests_cant": "Unbounded trees and adversarial string contents.", "anchors": ["cypher_renderer.go:Render", "node.go:Node.enter", "relationship_details.go:enter", "compound_condition.go:enter", "function_invocation.go:enter", "map_expression.go:enter", "list_expression.go:enter", "subquery.go:enter", "existential_subquery.go:enter"]}
{"id": "C41", "title": "Function invocations", "statement": "Each function constructor renders its documented Cypher function name, its arguments in order, and DISTINCT exactly for the distinct variants.", "quantifier": "all functions of the table and all arguments", "why_tests_cant": "Arguments are unbounded; the table is finite. (CollectDistinct renders avg.)", "anchors": ["functions.go", "built_in_function.go", "function_invocation.go"]}
{"id": "C42", "title": "MERGE actions", "statement": "ON CREATE and ON MATCH actions are rendered after the pattern in call order, each with its own SET items.", "quantifier": "all sequences of actions", "why_tests_cant": "Unbounded sequences.", "anchors": ["merge.go", "merge_action.go", "updating_clause_builder.go"]}
{"id": "C43", "title": "Every operator method renders its own operator", "statement": "IsEqualTo, Lt, Contains, In, Add, Pow and the other methods of expressions render receiver, their documented Cypher operator, argument, in this order; a missing operand or an operand with an error is an error.", "quantifier": "all methods, receivers and arguments", "why_tests_cant": "All expressions as operands. (False for the argument of a comparison that counts as nil: it is dropped without error.)", "anchors": ["expression_container.go", "operations.go", "comparison.go:ComparisonCreate", "operator.go"]}
{"id": "C44", "title": "Comprehensions and list predicates", "statement": "all/any/none/single, list comprehensions and pattern comprehensions render the variable or pattern, IN the list, WHERE the condition, | the definition, in this order and complete; parts with errors or missing parts are errors.", "quantifier": "all quantifiers, variables, lists, conditions, definitions", "why_tests_cant": "All expressions as parts. (False for parts with errors: a WHERE with an error is dropped silently.)", "anchors": ["predicates.go", "list_predicate.go", "list_comprehension.go", "pattern_comprehension.go"]}
{"id": "C45", "title": "Lists, property access and conditions on patterns", "statement": "List expressions and list literals render all elements in order between brackets; property access renders container.name; NOT pattern, pattern conditions and existential subqueries render their content completely; errors of the parts are errors of the result; all of these can be used as operands.", "quantifier": "all lists, containers, names, patterns", "why_tests_cant": "Unbounded lists, all names. (A list literal can not be aliased or compared, always an error.)", "anchors": ["list_expression.go", "list_literal.go", "expression_list.go", "property.go", "property_lookup.go", "excluded_pattern.go", "existential_subquery.go"]}
{"id": "C46", "title": "Named paths, label conditions and properties of nodes", "statement": "APath(n).DefinedBy(p) renders n = p and AShortestPath(n).DefinedBy(r) renders n = shortestPath(r); HasLabels renders the node's name followed by all labels; Property of a node renders name.property; a missing name, an empty label list, an empty property name or an error of the part is an error.", "quantifier": "all names, patterns, label lists and property names", "why_tests_cant": "All names and unbounded lists. (False: the missing name of a path is forgotten and a random identifier is printed.)", "anchors": ["name_path.go", "node.go:HasLabels", "node.go:Property", "has_label_condition.go"]}
{"id": "C47", "title": "Clause layouts", "statement": "MATCH, CREATE, SET, REMOVE, DELETE, UNWIND, procedure CALL and whole queries render their keyword, then every given pattern or item in order, then their condition; label operations render the node's name and its labels.", "quantifier": "all patterns, items, conditions and clause lists", "why_tests_cant": "Unbounded lists of arbitrary items.", "anchors": ["match.go", "create.go", "set.go", "remove.go", "delete.go", "unwind.go", "procedure_call.go", "operation.go:OperationCreate2", "single_part_query.go"]}
{"id": "C48", "title": "Dates and times from numbers and strings", "statement": "CalendarDate, WeekDate, QuarterDate and OrdinalDate render date({year: .., ..}) with each number given under its own key; the functions taking a string render one string literal that reads back as the given string, and reject the empty string; the functions taking a time zone render {timezone: name} and reject a missing zone.", "quantifier": "all integers, strings and time zones", "why_tests_cant": "All numbers and strings. (False for numbers from 10^10 on, printed with ten digits.)", "anchors": ["functions.go:CalendarDate", "functions.go:WeekDate", "functions.go:QuarterDate", "functions.go:OrdinalDate", "functions.go:LocalDateTimeWithTimezone", "functions.go:DurationWithTemporal"]}
{"id": "C49", "title": "Lists and sort items of raw Go values", "statement": "ListOfRaw renders the literals of its arguments in order and accepts only values for which a literal exists; SortItemsOfRaw(\"n.name DESC\") sorts by n.name in the given direction and reports malformed text as an error.", "quantifier": "all lists of Go values, all texts", "why_tests_cant": "Unbounded lists of arbitrary values. (False: the sort items are string constants, and a text without a space makes the program panic.)", "anchors": ["cypher.go:ListOfRaw", "cypher.go:SortItemsOfRaw", "cypher.go:LiteralOf"]}
{"id": "C50", "title": "Shortcut methods", "statement": "As, InternalId, Labels, Project and Property of a named node or relationship refer to it by its name and are errors without one; Property.To renders property = value; Ascending and Descending of an expression render its direction; list access and range by Go integers denote these integers; UnwindMulti unwinds the list of its arguments.", "quantifier": "all nodes, relationships, names, expressions and integers", "why_tests_cant": "All names, expressions and numbers. (List access by integers from 10^10 on is false, see C06.)", "anchors": ["node.go:As", "node.go:InternalId", "node.go:Labels", "node.go:Project", "relationship.go:Property", "relationship.go:Project", "property.go:To", "sort_item.go", "cypher.go:CypherValueAt", "cypher.go:CypherSubListFrom", "functions.go:RangeRaw", "cypher.go:UnwindMulti"]}
{"id": "C51", "title": "Number literals with a fraction", "statement": "The literal of a floating point number is a numeral denoting that number; of all numerals with the same number of digits it is the closest; PercentileCont and PercentileDisc accept exactly the numbers between 0 and 1.", "quantifier": "all float64 values", "why_tests_cant": "2^64 inputs, and what matters is the distance to every other numeral. (False: ten digits are kept, whole numbers become integers, infinity is no number and NaN panics.)", "anchors": ["number_literal.go:NumberLiteralCreate2", "cypher.go:LiteralOf", "functions.go:PercentileCont", "functions.go:PercentileDisc"]}
{"id": "C52", "title": "Expressions read back", "statement": "The text rendered for an expression, read with the grammar of Cypher expressions (words, operator precedence, atoms), is an expression that means exactly what the calls meant: the same operator applied to the same operands, whatever the operators, functions and names mean. In particular two expressions with the same text mean the same.", "quantifier": "all expressions composed of literals, parameters, variables, properties, calculations, comparisons, combinations of conditions, functions, label tests, lists, maps, map projections, list access, CASE, quantified predicates, list comprehensions, patterns as conditions and as arguments of functions, pattern comprehensions and EXISTS, of any depth, at any point of a statement", "why_tests_cant": "Infinitely many expressions, and the question is what a second program (the parser of the database) makes of the text. (False where parentheses are missing: conditions and powers as operands, a list beginning with a membership test; variables named like keywords.)", "anchors": ["operation.go:accept", "comparison.go:accept", "compound_condition.go:accept", "expressions.go:NameOrExpression", "function_invocation.go:accept", "list_expression.go:accept", "map_expression.go:accept", "case.go:accept", "list_comprehension.go:accept", "predicates.go:Where", "symbolic_name.go:SymbolicNameCreate"]}
{"id": "C53", "title": "Patterns read back", "statement": "The text rendered for a pattern, read with the grammar of Cypher patterns, is the pattern that the calls described: the nodes and relationships in this order, each with its name, labels or types, direction, length and properties, and the name of the path. A named node that was described before is read as its name alone. In particular two patterns with the same text are the same.", "quantifier": "all nodes, relationships, chains, named paths and shortest paths, of any length, with any names, labels, types, lengths and property maps, after any earlier part of the statement", "why_tests_cant": "Infinitely many patterns and names, and the question is what a second program (the parser of the database) makes of the text. (False for a node that is shown again: its name is not escaped.)", "anchors": ["node.go:accept", "node.go:enter", "relationship.go:accept", "relationship_details.go", "relationship_chain.go:accept", "name_path.go:accept", "cypher_renderer.go:enter"]}
{"id": "C54", "title": "Statements read back", "statement": "The text rendered for a statement, read with the grammar of Cypher statements, is the statement that the calls described: the clauses in the order of the calls, each with its patterns, conditions, results, sort order, assignments and arguments, with subqueries in their place and the queries of a union in their order; after x AS a an expression containing x is read as the one with the variable a in its place. In particular two statements with the same text are the same.", "quantifier": "all statements that the builder can make from clauses whose parts mean something, of any length and depth of nesting", "why_tests_cant": "Infinitely many statements, the effect of each alias and each node on everything after it, and the question is what a second program (the parser of the database) makes of the text. (False where C30 to C33, C37 and C47 are.)", "anchors": ["cypher_renderer.go:render", "default_statement_builder.go:Build", "multi_part_query.go:accept", "single_part_query.go:accept", "union_query.go:accept", "subquery.go:accept", "with.go:accept", "return.go:accept", "match.go:accept", "merge.go:accept", "updating_clause.go", "procedure_call.go:accept", "unwind.go:accept"]}
{"id": "C55", "title": "The text does not depend on where objects are in memory", "statement": "The keys by which the renderer recognises aliases and nodes are addresses. If the same program makes its objects at other addresses, Render returns the same text (or the same error).", "quantifier": "all statements, all ways of placing their objects in memory", "why_tests_cant": "Where objects are is the choice of the runtime; a test sees one of them, and the harmful choices occur only after a garbage collection. (False if an address is used again for another object: the keys do not keep the objects alive.)", "anchors": ["support.go:getAddress", "node.go:NodeCreate2", "cypher_renderer.go:preEnter", "cypher_renderer.go:postLeave", "cypher_renderer.go:enter"]}
{"id": "C56", "title": "An alias stands only for the expression it was given to", "statement": "Where the text shows an alias in place of an expression, that expression is the one the alias was given to: the same operators on the same operands.", "quantifier": "all statements, all places where an expression is shown", "why_tests_cant": "Any two of the expressions of a statement could be confused, and methods that extend an expression may keep its key. (False for combinations of conditions that are extended with And, Or, Xor, and for CASE that gets an ELSE.)", "anchors": ["alias_expression.go:AliasedExpressionCreate", "cypher_renderer.go:preEnter", "compound_condition.go:add", "case.go:ElseDefault"]}
{"id": "C57", "title": "Which names read back", "statement": "A symbolic name, variable or alias given to the DSL is read from the query text as exactly that name, with exactly the rest of the text after it, if and only if it contains a character that is not white space; a name of nothing but white space is printed as it is and read as no name at all.", "quantifier": "all strings, all texts that may follow a name", "why_tests_cant": "All Unicode strings and all following texts; an exact boundary needs both that everything inside works and that everything outside fails.", "anchors": ["cypher_renderer.go:EscapeIfNecessary", "cypher_renderer.go:isIdentifier", "symbolic_name.go", "alias_expression.go"]}
{"id": "C58", "title": "Which parameters read back", "statement": "A parameter is read from the query text as exactly the name it has, with exactly the rest of the text after it, if and only if its name is a plain identifier.", "quantifier": "all strings, all texts that may follow a parameter", "why_tests_cant": "All Unicode strings and all following texts; the boundary is a statement about all of them.", "anchors": ["parameter.go:ParameterCreate", "parameter.go:enter"]}
{"id": "C59", "title": "Which integers are exact", "statement": "An integer literal denotes the integer it was made from if and only if that is a number below 10^10 (in absolute value) times a power of ten; it is a whole number literal of Cypher if and only if it is below 10^10. Two integers with the same literal have the same closest number with ten significant digits.", "quantifier": "all integers", "why_tests_cant": "Unbounded set of numbers; the boundary is not an interval (9*10^18 is exact, 10^10+1 is not).", "anchors": ["number_literal.go:NumberLiteralCreate1", "number_literal.go:AsString"]}
{"id": "C60", "title": "Which arithmetic is read as it was built", "statement": "The text of an expression built with Add, Subtract, Multiply, Divide, Remainder, Pow and Concat is read by Cypher in exactly one way, and this is the expression that was built if and only if no power is the exponent of a power.", "quantifier": "all expression trees of any depth over any operands", "why_tests_cant": "Infinitely many trees; the converse says that every tree outside the class is misread, however it is nested.", "anchors": ["operation.go:accept", "operation.go:needsGrouping", "operations.go"]}
{"id": "C61", "title": "Which conditions are read as they were built", "statement": "The text of a combination made with And, Or, Xor, AndPattern, OrPattern, XorPattern and Not is read by Cypher in exactly one way. For all meanings of the atomic conditions and all associative connectives this reading has the value of the combination as it was written, if and only if in the text no operator is followed, inside the same parentheses, by one that binds stronger (no AND after XOR or OR, no XOR after OR).", "quantifier": "all combinations of any size and nesting, all atomic conditions, all meanings", "why_tests_cant": "Infinitely many combinations; equality for all meanings is decided by comparing formulas up to associativity, and the converse says that every combination outside the class means something else.", "anchors": ["compound_condition.go:CompoundConditionCreate", "compound_condition.go:add", "compound_condition.go:accept", "compound_condition.go:canBeFlattenedWith", "condition_container.go"]}
{"id": "C62", "title": "What a CASE expression contains after any calls", "statement": "After any sequence of calls of When/Then and ElseDefault on a CASE expression, with or without arguments that carry errors: the sequence panics if and only if the argument of some When carries an error; the expression carries an error if and only if some argument did and no When came after the last of these errors, and it is that last error; otherwise it prints CASE, the subject, the branches added since the last error in order, the default if setting it was the last call, END, where the subject is missing exactly if there was an error.", "quantifier": "all call sequences of any length, all arguments, with and without errors", "why_tests_cant": "Infinitely many sequences; tests add two or three good branches and never continue after an error.", "anchors": ["case.go:Case.When", "case.go:Case.ElseDefault", "case.go:OngoingWhenThen.Then", "case.go:Case.accept"]}
{"id": "C63", "title": "Chains of calls that compile can be built", "statement": "Every chain of calls that Go's type checker admits, begun with a function of cypher.go, does not panic, and if the last value has Build, that gives a statement without error, provided the arguments carry no errors and are present (patterns for CREATE and MERGE, something to return, labels, pairs or assignments for SET, a subquery that returns), every And and Or has a condition of a MATCH or WITH to extend, and every OnCreate and OnMatch follows a MERGE. Each of these provisos is needed: without it a chain that compiles panics or gives an error.", "quantifier": "all chains of calls of any length that type-check, all arguments", "why_tests_cant": "Infinitely many chains; the interfaces promise that what compiles can be built, tests only follow some dozens of chains.", "anchors": ["statement_builder.go", "default_statement_builder.go:And", "default_statement_builder.go:OngoingOnAfterMerge", "default_statement_builder.go:BuildImpl", "default_statement_with_with_builder.go", "multi_part_query.go:MultiPartQueryError"]}
{"id": "C64", "title": "Where every clause ends up", "statement": "For every query whose calls Go's type checker admits and which ends in a value with Build, if no part has an error, Build gives a statement without error and the text is fully determined: every requested clause is rendered exactly once, in the order of the calls, except that a procedure call with a condition, or a MERGE with actions, is rendered only after the clauses that follow it and that the builder puts down first (after a call: UNWIND, SET, REMOVE; after such a MERGE: setting or removing labels and properties, then any SET or REMOVE); and a RETURN DISTINCT directly after SET or REMOVE is not rendered at all. The order is that of the calls exactly if no such clause directly follows a waiting one.  Every program is such a query: if the type checker admits the calls, whatever they are, and Build after them, the arguments are usable, Where is not called for a subquery, And and Or extend a condition of a MATCH or WITH, OnCreate and OnMatch belong to a MERGE, and a standalone procedure call has YIELD and its arguments once, then the calls are those of clauses in their order, and Build gives the statement described.", "quantifier": "all queries, with any number of clauses of any kind, that type-check", "why_tests_cant": "Infinitely many sequences of clauses; tests do not contain the sequences in which clauses change places.", "anchors": ["default_statement_builder.go:Set", "default_statement_builder.go:Unwind", "default_statement_builder.go:CloseCurrentOngoingCall", "default_statement_builder.go:CloseCurrentOngoingUpdate", "default_statement_with_update.go:Build", "in_query_call_builder.go"]}
{"id": "C65", "title": "What SET makes of its arguments", "statement": "For every list of arguments without errors, Set (and Set after OnCreate or OnMatch) is refused exactly if the number of arguments that are not operations is odd; otherwise its text is SET followed by the operations in order and then by 'target = value' for the other arguments two by two. These are the assignments that were written, in this order, exactly if no operation directly follows an argument that is not one; in particular a computed value is never assigned to the target before it.", "quantifier": "all argument lists, of any length and mixture, at every point of every chain of calls", "why_tests_cant": "Argument lists are unbounded and the result depends on the positions of all operations; tests contain only pairs or only operations.", "anchors": ["default_statement_builder.go:prepareSetExpression", "default_statement_builder.go:Set", "updating_clause_builder.go:on"]}
{"id": "C66", "title": "Exported constructors without a method", "statement": "DistinctExpressionCreate(x) is refused exactly if x has an error and otherwise renders DISTINCT x; RawStringLiteralCreate renders its text unchanged; HasLabelConditionCreate1 is refused exactly if its name is missing or erroneous or it has no labels, and otherwise renders the name and labels that read back; OperationCreate1 accepts an operand, an operator and a label and renders them in this order.", "quantifier": "all operands, names, label lists and texts", "why_tests_cant": "The constructors are not called by any method of the package, so no test of the fluent interface reaches them; inverted checks are only seen by calling them.", "anchors": ["distinct_expression.go:DistinctExpressionCreate", "raw_string_literal.go:RawStringLiteralCreate", "has_label_condition.go:HasLabelConditionCreate1", "operation.go:OperationCreate1"]}
{"id": "C67", "title": "Exactly which errors Build reports", "statement": "For every chain of calls that Go's type checker admits and whose arguments are usable apart from errors, Build gives a statement without error if and only if no call is given something erroneous in one of these places: patterns, what is set, removed, unwound, deleted, passed on or returned (except by a RETURN directly after SET or REMOVE), a subquery, the arguments of a procedure call within a query, the condition given to Where after MATCH, and the condition given to Or after MATCH. All other errors (conditions given to And after MATCH, any condition after WITH or a procedure call, sort items, yielded items, what is returned after SET or REMOVE, nodes given by name after WITH, SET, REMOVE or a procedure call whose name itself is fine) are lost. For chains that type-check, a reported error never lets a statement without error come out, whatever the other arguments are.", "quantifier": "all chains of calls of any length that type-check, all arguments; chains that begin with a procedure call: with arguments of that call free of errors", "why_tests_cant": "Which checks are there depends on the builder behind the interface and on the method's variant; tests give an erroneous argument to single methods only, and a lost error shows only in the text of the whole query.", "anchors": ["default_statement_builder.go:And", "default_statement_builder.go:Or", "default_statement_builder.go:Where", "default_statement_with_with_builder.go", "default_statement_with_update.go", "in_query_call_builder.go", "procedure_call.go"]}
{"id": "C68", "title": "Exactly which nested unions are accepted, and their text", "statement": "However calls of Union and UnionAll are nested, the result has no error if and only if: every query is without errors; every union has two parts or more; a union that is the first part of a union is of the same kind; except that a union with an error that is the first part of a Union (not UnionAll) does not count, if two parts or more remain. The text of an accepted union consists of all its queries from left to right, with the word of the innermost common union between neighbours (so no parentheses and no nesting remain), without the parts that do not count. If all unions are of one kind, the text is that of the flat union of all queries.", "quantifier": "all nestings of Union and UnionAll of any depth and width, all queries, all states of the renderer", "why_tests_cant": "Nesting is unbounded, and the behaviour of a part depends on its position, its kind, and whether it has an error; the tests have no nested unions except one added to a union.", "anchors": ["cypher.go:Union", "cypher.go:UnionAll", "cypher.go:unionImpl", "union_query.go:addAdditionalQueries", "union_query.go:UnionQueryCreate"]}
{"id": "C69", "title": "Names and aliases keep to their scope", "statement": "A query of a union, a subquery, and what follows a WITH have scopes of their own: what they do not get passed on they do not see. In them a node or an aliased expression that occurred before is shown in full again, so that every query of a union and every subquery has the text it has alone. An alias is used in place of its expression only where it is visible, that is, not within the list of items that defines it.", "quantifier": "all nestings of unions, all subqueries, all sequences of query parts, all renderer states", "why_tests_cant": "Whether something is abbreviated depends on everything that was rendered before it in the statement; tests use new nodes for every part. (False: what was described or defined in another scope is abbreviated.)", "anchors": ["cypher_renderer.go:enter", "cypher_renderer.go:preEnter", "union_query.go:accept", "subquery.go:accept", "multi_part_query.go:accept"]}
{"id": "C70", "title": "The renderer never looks into texts", "statement": "What is abbreviated, where separators go and in which order things are printed does not depend on the texts of the parts of a statement: if the texts of all parts are replaced piece by piece, exactly this replacement happens to the text of the statement. In particular a string literal's contents come out, escaped, at exactly the places where any other contents would come out, and nothing else in the text depends on them.", "quantifier": "all statements, all replacements of texts that keep the renderer's own separators, all contents of string literals", "why_tests_cant": "It compares every statement with all the statements that differ from it in texts only; a renderer that inspects texts (to join blanks, to drop repetitions, to guess keywords) can agree on every statement that a test contains.", "anchors": ["cypher_renderer.go:enter", "cypher_renderer.go:leave", "cypher_renderer.go:append", "node.go:enter", "alias_expression.go:enter", "string_literal.go:AsString"]}
{"id": "C71", "title": "The first error is reported", "statement": "If several things given to the library have errors, the error that comes out is that of the first: of the first operand, element, argument, pattern or query for expressions, conditions, lists, function calls, relationships and unions; and for a chain of calls of the builder, Build returns the error of the first call that is given something with an error, and of its first argument that has one, whatever is called afterwards.", "quantifier": "all operands and arguments; all chains of calls that Go's type checker admits, up to the first error and after it", "why_tests_cant": "The claim is about the combination of several errors at arbitrary places of a chain; a test shows for one chain which error comes out, and the error values are usually not compared at all.", "anchors": ["default_statement_builder.go:Where", "default_statement_builder.go:With", "default_statement_builder.go:Update", "default_statement_with_update.go:Delete", "in_query_call_builder.go:WithArgs", "operation.go:OperationCreate", "comparison.go:ComparisonCreate", "function_invocation.go:FunctionInvocationCreate", "relationship.go:RelationshipCreate3", "union_query.go:UnionQueryCreate"]}
{"id": "C72", "title": "Missing (nil) arguments are reported", "statement": "If nil is passed where an expression, pattern, condition or statement is expected, the result carries an error: nothing panics, when the call is made or when the statement is rendered, and no statement is built as if the argument had not been given.", "quantifier": "all lists of arguments that contain nil at any place, all states of the builder", "why_tests_cant": "Whether nil is noticed depends on the function, on the place of the argument in the list, on the operator of the condition that is already there, and shows only when the statement is rendered; tests pass nil to one function at one place.", "anchors": ["operation.go:OperationCreate", "comparison.go:ComparisonCreate", "default_statement_builder.go:Where", "default_statement_builder.go:getUpdatingClauseBuilder", "condition_builder.go:And", "expression_list.go:ExpressionListCreate", "cypher.go:unionImpl", "subquery.go:SubqueryCall"]}
{"id": "C73", "title": "What nodes, relationships and chains contain after any calls", "statement": "For a node made by any constructor, a relationship between any two nodes, or a chain of any number of relationships, followed by any calls that name it, give it properties or a length, with any arguments, also erroneous ones: whether it has an error and which, and its text otherwise.  A node has the labels of its constructor unless something failed, and the name and properties given last since the last failure; its error goes away with WithProperties.  A relationship has the name, length and properties given last since the last failure; if there was a failure its nodes, direction and types are gone, and its error goes away with the next call that changes something.  A chain never has an error.  Where a node has been described, a node made from it by calls that only give names is shown as its name alone, one made with WithProperties in full.", "quantifier": "all constructors, nodes, labels, types, properties; all sequences of calls of any length, at each relationship of a chain", "why_tests_cant": "The effect of an error that is overwritten by later calls, and which of several names, bounds and properties wins, depends on the whole sequence of calls.", "anchors": ["node.go:WithProperties", "node.go:Named", "node.go:NamedByString", "relationship.go:RelationshipCreate3", "relationship.go:WithProperties", "relationship_details.go:RelationshipDetailsCreate", "relationship_chain.go:accept"]}
{"id": "C74", "title": "What RETURN and WITH show after any ordering calls", "statement": "For RETURN and WITH with any items, any sort items made by any constructors and direction methods, any ordering calls the interfaces allow, any SKIP and LIMIT, with errors anywhere: rendering panics if and only if a sort item lost its error through Ascending or Descending and no error of a sort item given to OrderBySortItem is noticed.  Otherwise the order shown is empty if such an error is noticed, and else consists of the sort items without error in the order of the calls, each with the direction asked for last; LIMIT 0 is left out; a WITH shows no item if one has an error, and no condition if it has an error.  None of these errors is reported.", "quantifier": "all items, sort items, directions, numbers, conditions; all sequences of ordering calls of any length", "why_tests_cant": "Which of three things happens to an error depends on how the sort item was made and on the errors of the other sort items.", "anchors": ["order_builder.go:BuildOrder", "order.go:OrderCreate", "sort_item.go:Descending", "sort_item.go:Ascending", "limit.go:LimitCreate", "return_body.go:ReturnBodyCreate", "with.go:withCreate"]}
{"id": "C75", "title": "Zero values and failed values that are printed", "statement": "A value that consists of an error only, or a zero value such as var p Property, of any of the 37 types of expressions: printing it panics for fourteen types and leaves a fixed text behind for the others (for example $ for a parameter, two blanks for a comparison, nothing and not even a comma for a compound condition).  For every list of arguments, made values and such values mixed: RETURN after an updating clause panics when rendered if and only if one of them is of the fourteen types, and otherwise lists the arguments with those texts, whatever their errors; RETURN after a reading clause and ListOf report the first error, and without errors behave like that too.", "quantifier": "all types of expressions, all errors, all lists of arguments of any length, all orders, SKIPs and LIMITs", "why_tests_cant": "A test would need one zero value per type in every position of an argument list; the failing ones come from user mistakes far from the RETURN.", "anchors": ["default_statement_with_update.go:Returning", "default_statement_builder.go:ReturningDefault", "expression_list.go:accept", "list_expression.go:ListExpressionCreate1", "parameter.go:ParameterError", "compound_condition.go:accept"]}
{"id": "C76", "title": "Exactly when two uses of one condition interfere", "statement": "Let x be a condition made with one of And, Or, Xor from n atomic conditions, n at least 2, and let it be used any number of times with this operator, each time with one more atomic condition.  x itself stays as it is.  Every use gives the condition that was asked for if and only if n is a power of two or all uses ask for the same as the last one; otherwise all uses give the condition of the last use.  For any other allocator: they give what was asked for if and only if the slice of x is full, or all ask for the same.", "quantifier": "all conditions, all three operators, all n, any number of uses; for any memory at the start and any growth of slices", "why_tests_cant": "Tests that extend a shared filter of one, two or four conditions pass; with three the queries silently get the wrong filter.", "anchors": ["compound_condition.go:add", "compound_condition.go:And", "compound_condition.go:Or", "compound_condition.go:Xor", "condition_container.go:And"]}
{"id": "C77", "title": "What several uses of one chain of relationships make of each other", "statement": "Let c be any chain of relationships that a program has made, and let any calls be made on it, one after the other: RelationshipTo, RelationshipFrom, RelationshipBetween (extensions) and NamedC, Unbounded, Min, Max, Length, Properties, PropertiesRaw (changes).  In the end c itself has all the changes, and so has every result of a change, also of those that came later.  If the slice of c is full, every extension is what it would be if chains were values, with the changes that came before it.  If it has room, all extensions are the same chain, with all changes and the relationship that the last extension added.  So several extensions of one chain are independent if and only if the slice is full, or they all ask for the same.", "quantifier": "all programs that make chains, all chains they make, any calls on a chain in any order, any growth of slices", "why_tests_cant": "Which uses of a shared chain interfere depends on the capacity of a slice, that is on the number of relationships; tests with one or two relationships see nothing of it.", "anchors": ["relationship_chain.go:RelationshipTo", "relationship_chain.go:RelationshipFrom", "relationship_chain.go:RelationshipBetween", "relationship_chain.go:NamedC", "relationship_chain.go:Properties", "relationship_chain.go:Add"]}
{"id": "C78", "title": "What several uses of one CASE expression make of each other", "statement": "Let c be any CASE expression that a program has made, and let When(w).Then(t) be called on it any number of times.  This panics exactly if one of the conditions w has an error, and c itself stays as it is.  If the slice of c is full, every result is what it would be if cases were values.  If it has room, every result ends up with the branch that the last call asked for; and if the THEN of the last call has an error, every earlier result has become one that cannot be rendered.  Without errors, the results are what was asked for if and only if the slice is full or all calls ask for the same branch as the last one.  Calling Then several times on the one value that When returned adds one branch with the same condition for each call.", "quantifier": "all programs that make cases, all cases they make, any number of uses, any growth of slices", "why_tests_cant": "Which uses of a shared CASE interfere depends on the capacity of a slice, that is on the number of its branches; and an error in a later use destroys an earlier, correct result.", "anchors": ["case.go:When", "case.go:Then", "case.go:CaseWhenThenCreate", "case.go:EndingSimpleCaseCreate", "case.go:EndingGenericCaseCreate"]}
{"id": "C79", "title": "Adding entries to a map, changing an alias, functions of several pattern elements", "statement": "For any map without error and any list of new entries, AddEntries is refused exactly if a new entry has an error, and then with the first such error; otherwise the result renders the entries of the map and then the new ones, and adding in two steps is adding at once.  The error of a map is however lost by AddEntries, and a key may come twice.  For any expression x and aliases a, b, x.As(a).Aliased(b) is accepted exactly if x.As(a) is without error and b is not empty, and then it is shown as x AS b, and x is known by b afterwards; x.As(a).AsName() is shown exactly as a is shown after AS.  A function of a pattern is refused exactly without a pattern or if one of its elements has an error; otherwise it renders the name and all elements, in order, separated by commas, in parentheses.", "quantifier": "all maps, entries, expressions, aliases, functions and patterns, in any state of the renderer in which the construct itself has no alias", "why_tests_cant": "The number of entries and of pattern elements is not bounded, and the alias may be any string; no test adds entries to a map with an error or repeats a key.", "anchors": ["map_expression.go:AddEntries", "alias_expression.go:Aliased", "alias_expression.go:AsName", "function_invocation.go:FunctionInvocationCreateWithPattern"]}
{"id": "C80", "title": "What any reuse of builders yields, one continuation after the other", "statement": "For every program that goes on with one continuation of a builder after the other, whatever builders it uses again and however often, the statements are determined by a rule on builders as values, and do not depend on the capacities that append chooses.  In particular: if the builder of a SET or REMOVE is used n times, for Build() or to go on with WITH, MERGE or CREATE, the i-th use yields exactly what the chain with i such clauses yields; if the builder of an UNWIND is used n times (As), or that of an ON CREATE / ON MATCH (Set), the i-th use yields exactly what the chain with the UNWINDs or actions of the uses 1, ..., i yields; all other builders are the same after every use.", "quantifier": "all programs of calls, Build() and repeated uses in depth-first order, all growth policies, all builders of updates, UNWIND and actions, any number of uses", "why_tests_cant": "A test can repeat a use a few times; the rule is about any number of uses of any builder of a program, nested in each other, and about any capacity of the slices that are shared.", "anchors": ["default_statement_with_update.go:Build", "default_statement_with_update.go:Returning", "default_statement_builder.go:addUpdatingClause", "default_ongoing_unwind.go:As", "default_statement_builder.go:OngoingOnAfterMerge"]}
{"id": "C81", "title": "What is put into string literals, labels and relationship types never becomes part of the query", "statement": "Take a statement with places inside its string literals, labels and relationship types. Whatever strings a program puts there, the rendered text consists of the same words in the same order, read with an independent reader of Cypher words: each string literal contains exactly what was put in, so does each label and type, and every other word is unchanged.", "quantifier": "all statements, all places, any number of different fillings at once, all strings put in, all classifications of characters", "why_tests_cant": "A test tries some hostile strings at some places; the claim is about every string at every place of every statement, together.", "anchors": ["string_literal.go:escapeStringLiteral", "cypher_renderer.go:escapeName", "node_labels.go:enter", "relationship_type.go:enter", "cypher_renderer.go:Render"]}
{"id": "C82", "title": "What several continuations of one builder make of each other", "statement": "Let a builder be continued several times by any calls of MATCH, WHERE, AND, OR, CREATE, MERGE, DELETE and CALL {...}, before any of the results is built.  The builder itself stays as it is.  A continuation that closes more clauses than the array of clauses of the builder had room for is what it would be if builders were values.  In every other continuation the clauses it has closed are overwritten by those of all later continuations, place by place.  So all are as they should be if the array is full, which with Go's growth of slices is the case exactly if the number of closed clauses is 0 or a power of two; and continuations that close one clause each are as they should be exactly if the array is full or all close the same clause as the last one.", "quantifier": "all builders in any memory, any number of continuations by any number of these calls without errors, any growth of slices, any way to go on with any of the results", "why_tests_cant": "Whether two queries made from one prefix get each other's WHERE depends on the capacity of a slice, that is on the number of clauses of the prefix; tests with one, two or three MATCHes see nothing of it.", "anchors": ["default_statement_builder.go:CloseCurrentOngoingMatch", "default_statement_builder.go:CloseCurrentOngoingUpdate", "default_statement_builder.go:CloseCurrentOngoingCall", "default_statement_builder.go:Match", "default_statement_builder.go:Update", "default_statement_builder.go:Call"]}
{"id": "C83", "title": "Rendering at the same time", "statement": "Any number of calls of Render may be under way at the same time, in any number of goroutines.  A call on a renderer that no other of these calls uses returns what it returns on its own (for a new renderer: the text of its statement), whatever the other calls do, even if they render the same statement; and calls on one renderer that follow one after the other return what they return on their own, whatever happens on other renderers in between.  Two calls on one renderer that overlap can spoil each other even if their statements have nothing in common: the separators of one are lost.", "quantifier": "all statements, including nil and erroneous ones, any number of renderers in any state, any number of calls, all orders in which their single steps take place", "why_tests_cant": "The order in which goroutines take their steps is not under the control of a test; RETURN c, d becomes RETURN cd only if the steps fall in one of certain orders.", "anchors": ["cypher_renderer.go:Render", "cypher_renderer.go:NewRenderer", "cypher_renderer.go:enter", "cypher_renderer.go:leave", "cypher_renderer.go:append"]}
{"id": "C84", "title": "One address, one object", "statement": "If no two different objects of a statement have the same address, Render returns the text of its parts put together: every part is shown in full or, where the statement has already given it an alias or described it as a node, by its name, and nothing else is left out or added.  Of several statements rendered one after the other by one renderer each gets its share of the text that all of them would have as one statement.  If two objects share an address (And keeps the address of the condition it extends) this can fail: closing brackets and separators get lost.", "quantifier": "all statements, whatever they consist of, in which one address belongs to one object; all lists of statements rendered before, including erroneous ones", "why_tests_cant": "Whether objects share an address depends on how they were made and used; the separators and brackets that get lost are those of enclosing constructs.", "anchors": ["cypher_renderer.go:enter", "cypher_renderer.go:leave", "cypher_renderer.go:PreEnter", "cypher_renderer.go:getAliasedIfSeen", "compound_condition.go:add", "support.go:getAddress"]}
{"id": "C85", "title": "Strings of any bytes", "statement": "A Go string may hold any bytes, not only valid UTF-8.  A string literal and a quoted name are read back as exactly the bytes they were made of.  A name stays unquoted exactly if it is the UTF-8 of white space or of a name that Cypher reads without quotes; a name that is not valid UTF-8 is always quoted.  On valid UTF-8 quoting, escaping, parameter names and trimming do with the bytes what they do with the characters, so that the other properties, which speak of characters, hold of the bytes.  A whole statement rendered as bytes is the UTF-8 encoding of its text; bytes of any kind that are put into a place of a statement come out at this place unchanged.", "quantifier": "all byte sequences, valid UTF-8 or not; all texts that follow", "why_tests_cant": "There are 256^n strings of n bytes, and the decoder of Go replaces malformed sequences of many kinds by one character; tests use well-formed text.", "anchors": ["string_literal.go:AsString", "cypher_renderer.go:EscapeName", "cypher_renderer.go:EscapeIfNecessary", "cypher_renderer.go:isIdentifier", "parameter.go:ParameterCreate", "cypher_renderer.go:Render"]}
{"id": "C86", "title": "What is put into variables, aliases and keys never becomes part of the query", "statement": "Let a statement have places for names: variables, aliases, property keys or keys of maps that come from the program's input.  Whatever names that are not blank are put there - names that look like keywords, that contain back-quotes, line comments or whole clauses - the text of the query consists of the same words in the same order: each place becomes exactly the name put in (quoted if Cypher would not read it otherwise) and every other word stays what it is.  The same holds when contents of string literals, labels and relationship types are put in at the same time.  Names of parameters, of UNWIND and of nodes that are shown again must be names that Cypher reads without back-quotes, since they are written as they are (C05, C12, C47).", "quantifier": "all statements, all renderings with a new renderer, all names that are not blank, all texts in which the places are words of their own", "why_tests_cant": "The inputs are arbitrary strings and the claim is about every statement they can be put into; a test shows one name in one statement.", "anchors": ["cypher_renderer.go:EscapeIfNecessary", "cypher_renderer.go:isIdentifier", "symbolic_name.go:enter", "alias_expression.go:accept", "property_lookup.go:enter", "entry_expression.go:enter", "key_value_map_entry.go:enter", "cypher_renderer.go:Render"]}
{"id": "C87", "title": "The text of a literal", "statement": "AsString() of a literal - null, a truth value, a number, a string, a raw string, a namespace, or a list of literals nested to any depth - is exactly what the query contains where the literal is used and not known under an alias, and using it changes nothing else in the query.  A literal can be made unless there is a NaN in it.  For null, truth values, strings, numbers of at most ten significant digits (others are rounded, C59), and lists of these nested to any depth: read back by Cypher the text is the data the literal was made of, and literals of different data have different texts.", "quantifier": "all literals, nested to any depth, all states of the renderer, all meanings and versions of Cypher", "why_tests_cant": "Literals can be nested to any depth and AsString() and the renderer are different code; a test compares the two for one literal.", "anchors": ["list_literal.go:AsString", "list_literal.go:accept", "string_literal.go:AsString", "number_literal.go:AsString", "bool_literal.go:AsString", "null_literal.go:AsString", "asterisk.go:AsString", "raw_string_literal.go:AsString", "name_space.go:AsString", "cypher.go:AQuote", "literal.go:Literal"]}
{"id": "C88", "title": "Exactly when what was shown before changes what is shown", "statement": "The renderer remembers which expressions have got an alias and which named nodes were described.  A part of a query - a clause, a query of a union, a subquery - or a statement rendered with a renderer that was used before is shown as it is shown on its own (the same constructs in the same order, the same ones abbreviated) if and only if none of the constructs that it shows in full on its own is (1) an expression that was given an alias before, anywhere in the earlier constructs, (2) a named node that was shown in full before, (3) the alias of an expression that was given an alias before.  If it is shown as on its own, its text is the same; otherwise the first construct that is shown differently is one of these, and it is abbreviated.", "quantifier": "all sequences of constructs before and after, all memories of a renderer, all sequences of statements rendered before", "why_tests_cant": "The interference is between any two parts of any statements, through state that is not visible; a test shows one pair.", "anchors": ["cypher_renderer.go:Render", "cypher_renderer.go:PreEnter", "cypher_renderer.go:enter", "cypher_renderer.go:leave", "cypher_renderer.go:postLeave", "node.go:enter", "alias_expression.go:accept"]}
{"id": "C89", "title": "Which calls Go's type checker admits after which", "statement": "A statement is built by calls, each on what the one before returns; the types admit a call directly after another one, in some program, exactly if: Where comes after MATCH, WITH, a subquery or YIELD (never after another Where); And/Or after Where, And, Or or the OrderBySortItem of a WITH; orders after WITH with its conditions and orders of sort items, or after RETURN; Ascending/Descending after a sort item and a further sort item after a direction or OrderBySortItem; Skip after any of these, not after Skip or Limit; Limit after these or Skip, never after Limit; As after Unwind; arguments and YIELD after the call of a procedure; OnCreate/OnMatch after CREATE, MERGE, DELETE or an action; MATCH after a reading part, not after UNWIND ... AS nor after an updating clause; UNWIND and procedure calls after a reading part; updating clauses and WITH, RETURN after reading parts and updating clauses (SetByNode, Remove not directly after CREATE, MERGE; no SET or REMOVE directly after DELETE).  A chain of calls is admitted exactly if it begins with a call that can begin a statement, every call may follow the one before in this sense, and: behind WITH nothing follows SKIP and no further sort item OrderBySortItem; behind RETURN there is one order, then SKIP, then LIMIT; behind other clauses there is no order, SKIP or LIMIT; the arguments of a procedure call are given once, except in a standalone call.  After RETURN come only its order, SKIP and LIMIT, so there is one RETURN at most.  Build can be called exactly if there was a RETURN, or the last call is an updating one, or the calls are those of a standalone procedure call.", "quantifier": "all chains of calls that are admitted, of any length; all pairs of calls", "why_tests_cant": "A program that the type checker rejects cannot be a test case, and that no admitted chain has a forbidden pair needs all chains.", "anchors": ["statement_builder.go:OngoingReading", "statement_builder.go:OngoingReadingAndReturn", "exposes_match.go:ExposesMatch", "exposes_unwind.go:ExposesUnwind", "exposes_returning.go:ExposesReturning", "exposes_where.go:ExposesWhere", "exposes_merge.go:ExposesMerge", "procedure_call.go:OngoingStandaloneCallWithoutArguments", "cypher.go:Match", "cypher.go:ACall"]}
