import Verif.NilArgs

/-
Zero values of the types of expressions (`var p cypher.Property`), and values that consist of an error only: what `accept` does with them.
-/

namespace Verif

variable (u : Unicode)

/-- The types with a method `GetExpressionType`. -/
inductive ZeroType where
  | aliased | asterisk | boolean | booleanFunction | case_ | comparison | compound | constant | distinct | entry | excludedPattern
  | existential | expressionList | function | hasLabel | mapEntry | listComprehension | listExpression | listLiteral | listOperator | dot
  | listPredicate | map | mapProjection | namespace_ | nested | null | number | operation | parameter | patternComprehension | property
  | lookup | rawString | relationshipPattern | string | symbolic
  deriving DecidableEq, Repr

/-- `accept` of a value of the type whose fields are all zero, but for the error; `guid`: the name the renderer prints for an empty name
(cypher_renderer.go:70-79). -/
def ZeroType.accept (guid : Str) : ZeroType → Outcome (List Tree)
  | .aliased => .panic                                                          -- alias_expression.go:61-75: getKey() of no delegate
  | .asterisk => .ok [leaf 0 []]                                                -- asterisk.go:51-58: no content
  | .boolean => .ok [leaf 0 c!"false"]                                          -- bool_literal.go:51-58: false
  | .booleanFunction => .ok [nd 0 c!"(" c!")" false [nd 0 [] [] true []]]       -- boolean_function_condition.go:32-34: the delegate is a zero FunctionInvocation
  | .case_ => .ok [nd 0 c!"CASE " c!" END" false []]                            -- case.go:125-149: caseType is not GENERIC_CASE
  | .comparison => .ok [nd 0 [] [] false [leaf 0 c!"  "]]                       -- comparison.go:97-107: no operands; a zero Operator, operator.go:39-51
  | .compound => .ok []                                                         -- compound_condition.go:83-86: no conditions, not even entered
  | .constant => .ok [nd 0 [] [] false [leaf 0 c!"false"]]                      -- constant_condition.go:35-39: a zero BooleanLiteral
  | .distinct => .panic                                                         -- distinct_expression.go:36-44: accept of no delegate
  | .entry => .panic                                                            -- entry_expression.go:44-48: accept of no value
  | .excludedPattern => .panic                                                  -- excluded_pattern.go:34-39: accept of no pattern
  | .existential => .ok [nd 0 c!"EXISTS {" c!"}" false [nd 0 c!"MATCH " c!" " false [nd 0 [] [] true []]]]   -- existential_subquery.go:38-50, a zero MatchPhrase: match.go:46-66
  | .expressionList => .ok [nd 0 [] [] true []]                                 -- expression_list.go:56-62
  | .function => .ok [nd 0 c!"(" c!")" false [nd 0 [] [] true []]]              -- function_invocation.go:152-165, visitable_list.go:36-48
  | .hasLabel => .ok [nd 0 [] [] false [leaf 0 guid]]                           -- has_label_condition.go:68-75: a zero SymbolicName
  | .mapEntry => .panic                                                         -- key_value_map_entry.go:35-39: accept of no value
  | .listComprehension => .panic                                                -- list_comprehension.go:49-60: accept of no list
  | .listExpression => .ok [nd 0 c!"[" c!"]" false [nd 0 [] [] true []]]        -- list_expression.go:51-63: a zero ExpressionList
  | .listLiteral => .ok [nd 0 c!"[" c!"]" false []]                             -- list_literal.go:38-55
  | .listOperator => .panic                                                     -- list_operator.go:132-137: accept of no target
  | .dot => .ok [leaf 0 []]                                                     -- list_operator.go:198-209
  | .listPredicate => .panic                                                    -- list_predicate.go:42-49: accept of no list
  | .map => .ok [nd 0 c!"{" c!"}" true []]                                      -- map_expression.go:76-90
  | .mapProjection => .ok [nd 0 [] [] false [leaf 0 guid, nd 0 c!"{" c!"}" true []]]   -- map_projection.go:60-65: a zero SymbolicName and a zero MapExpression
  | .namespace_ => .ok [leaf 0 []]                                              -- name_space.go:29-36, 57-59
  | .nested => .panic                                                           -- nested_expression.go:34-38: accept of no delegate
  | .null => .ok [leaf 0 c!"NULL"]                                              -- null_literal.go:30-32, 53-55
  | .number => .panic                                                           -- number_literal.go:65-67: String() of no number
  | .operation => .panic                                                        -- operation.go:120-126: accept of no operand
  | .parameter => .ok [leaf 0 c!"$"]                                            -- parameter.go:42-49
  | .patternComprehension => .panic                                             -- pattern_comprehension.go:49-56: accept of no pattern
  | .property => .panic                                                         -- property.go:79-84: accept of no container
  | .lookup => .ok [leaf 0 ('.' :: escapeIfNecessary u [])]                     -- property_lookup.go:28-40
  | .rawString => .ok [leaf 0 []]                                               -- raw_string_literal.go:45-56
  | .relationshipPattern => .panic                                              -- relationship_pattern_condition.go:42-46: accept of no pattern
  | .string => .ok [leaf 0 c!"''"]                                              -- string_literal.go:67-78
  | .symbolic => .ok [leaf 0 guid]                                              -- symbolic_name.go:60-67

/-- An expression: one made by the library's functions, or a value with only its error, or without even that, of some type. -/
inductive ExprArg where
  | made (v : Val)
  | zero (t : ZeroType) (err : Option Err)

/-- `GetError()` -/
def ExprArg.err : ExprArg → Option Err
  | .made v => v.err
  | .zero _ e => e

/-- `accept` -/
def ExprArg.accept (guid : Str) : ExprArg → Outcome (List Tree)
  | .made v => .ok v.visit
  | .zero t _ => t.accept u guid

/-- The loop of `accept` over expressions: expression_list.go:58-61. -/
def acceptArgs (guid : Str) : List ExprArg → Outcome (List Tree)
  | [] => .ok []
  | p :: ps => (p.accept u guid).bind fun ts => (acceptArgs guid ps).map (ts ++ ·)

/-- RETURN as default_statement_with_return_builder.go:23-28 and default_statement_with_update.go:112-117 make it: they do not look at errors.
`Returning` of an updating clause does not either (default_statement_with_update.go:129-132), that of other clauses does: `returnBase`. -/
def returnArgs (guid : Str) (k ko : Key) (distinct : Bool) (ps : List ExprArg) (o : OrderB) : Outcome (List Tree) :=
  if ps = [] then .ok []
  else (acceptArgs u guid ps).map fun ts =>
    [nd k c!"RETURN " [] false (distinctVisit distinct ++ bodyVisit [nd 0 [] [] true ts] (o.build ko) o.skip o.limit)]

/-- default_statement_builder.go:532-555 `Returning` of a reading clause, with what is built from it. -/
def returnBase (guid : Str) (k ko : Key) (distinct : Bool) (ps : List ExprArg) (o : OrderB) : Except Err (Outcome (List Tree)) :=
  match firstErr (ps.map ExprArg.err) with
  | some e => .error e
  | none => .ok (returnArgs u guid k ko distinct ps o)

/-- cypher.go:295-297 `ListOf`, expression_list.go:11-24, list_expression.go:13-28. -/
def listOfArgs (guid : Str) (k kl : Key) (ps : List ExprArg) : Except Err (Outcome (List Tree)) :=
  match firstErr (ps.map ExprArg.err) with
  | some e => .error e
  | none => .ok ((acceptArgs u guid ps).map fun ts => [nd k c!"[" c!"]" false [nd kl [] [] true ts]])

end Verif
