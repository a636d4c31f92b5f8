import Verif.Replay

/-
The tests of the package in function_rendering_test.go … test_cypher/cypherit/delete_clause_test.go, translated by tools/replay.py: each `example` makes the calls of the test
in the model and compares what is printed with the text that the test expects.
-/

namespace Verif

/-! ### function_rendering_test.go -/

/-- TestCountInReturnClause; the test itself expects `RETURN Count(u)`, which the code does not print (DESIGN.md). -/
example : printed (do
    let userNode ← (← cypher.ANode c!"User").NamedByString c!"u"
    let statement ← (← (← cypher.Match [(pat userNode)]).Returning [(ex (← cypher.Count userNode))]).Build
    let text0 ← rendered statement
    return [text0]) =
  some [c!"MATCH (u:`User`) RETURN count(u)"] := by decide +kernel

/-! ### issue_example_test.go -/

/-- TestGh48; the test itself expects the keys between backquotes, which the code does not print (DESIGN.md). -/
example : printed (do
    let n ← (← cypher.ANode c!"Label").NamedByString c!"n"
    let statement ← (← (← (← cypher.Match [(pat n)]).SetWithNamed (nm n) (ex (← cypher.MapOf [(.str c!"a"), (obj (← cypher.StringLiteralCreate c!"bar")), (.str c!"b"), (obj (← cypher.StringLiteralCreate c!"baz"))]))).ReturningByNamed [(nm n)]).Build
    let text0 ← rendered statement
    return [text0]) =
  some [c!"MATCH (n:`Label`) SET n = {a: 'bar', b: 'baz'} RETURN n"] := by decide +kernel

/-! ### test_cypher/cypher_dsl_example_test.go -/

/-- TestFindAllMovies -/
example : printed (do
    let movie ← (← cypher.ANode c!"Movie").NamedByString c!"m"
    let statement ← (← (← cypher.Match [(pat movie)]).ReturningByNamed [(nm movie)]).Build
    let text0 ← rendered statement
    return [text0]) =
  some [c!"MATCH (m:`Movie`) RETURN m"] := by decide +kernel

/-- TestDefaultStatementBuilder_OptionalMatch -/
example : printed (do
    let farm ← (← cypher.ANode c!"Farm").NamedByString c!"b"
    let statement ← (← (← (← (← (← cypher.Match [(pat farm)]).Where (co (← cypher.ConditionsNotByPattern (pat (← farm.RelationshipFrom (← cypher.AnyNode) [c!"HAS"]))))).WithByString [c!"b"]).OptionalMatch [(pat (← farm.RelationshipTo (← cypher.AnyNodeNamed c!"p") [c!"HAS"]))]).ReturningByString [c!"b", c!"p"]).Build
    let text0 ← rendered statement
    return [text0]) =
  some [c!"MATCH (b:`Farm`) WHERE NOT (b)<-[:`HAS`]-() WITH b OPTIONAL MATCH (b)-[:`HAS`]->(p) RETURN b, p"] := by decide +kernel

/-! ### test_cypher/cypher_test.go -/

/-- TestRenderSimpleQuery -/
example : printed (do
    let device ← (← (← cypher.ANode c!"Device").NamedByString c!"d").WithRawProperties [(.str c!"entity.id"), (obj (← cypher.StringLiteralCreate c!"7d729555-0d61-46ae-ab79-ce43e72f751b"))]
    let customer ← (← cypher.ANode c!"Customer").NamedByString c!"c"
    let relation ← device.RelationshipTo customer [c!"HAS"]
    let statement ← (← (← cypher.Match [(pat relation)]).Returning [(ex (← customer.GetSymbolicName))]).Build
    let text0 ← rendered statement
    return [text0]) =
  some [c!"MATCH (d:`Device` {`entity.id`: '7d729555-0d61-46ae-ab79-ce43e72f751b'})-[:`HAS`]->(c:`Customer`) RETURN c"] := by decide +kernel

/-- TestRenderComplexQuery -/
example : printed (do
    let device ← (← cypher.ANode c!"Farm").NamedByString c!"b"
    let customer ← (← cypher.ANode c!"Customer").NamedByString c!"c"
    let relation ← device.RelationshipTo customer [c!"HAS"]
    let statement ← (← (← cypher.Match [(pat relation)]).Returning [(ex (← customer.GetSymbolicName))]).Build
    let text0 ← rendered statement
    return [text0]) =
  some [c!"MATCH (b:`Farm`)-[:`HAS`]->(c:`Customer`) RETURN c"] := by decide +kernel

/-! ### test_cypher/cypherit/case_test.go -/

/-- TestSimpleCase -/
example : printed (do
    let node ← (← cypher.ANode c!"a").NamedByString c!"n"
    let builder ← (← (← cypher.Match [(pat node)]).Where (co (← (← (← cypher.CaseExpression (ex (← node.Property c!"value"))).When (ex (← cypher.LiteralOf (.str c!"blubb")))).Then (ex (← cypher.LiteralTrue))))).ReturningByNamed [(nm node)]
    let text0 ← built builder
    return [text0]) =
  some [c!"MATCH (n:`a`) WHERE CASE n.value WHEN 'blubb' THEN true END RETURN n"] := by decide +kernel

/-- TestSimpleCaseWithElse -/
example : printed (do
    let node ← (← cypher.ANode c!"a").NamedByString c!"n"
    let builder ← (← (← cypher.Match [(pat node)]).Where (co (← (← (← (← cypher.CaseExpression (ex (← node.Property c!"value"))).When (ex (← cypher.LiteralOf (.str c!"blubb")))).Then (ex (← cypher.LiteralTrue))).ElseDefault (ex (← cypher.LiteralFalse))))).ReturningByNamed [(nm node)]
    let text0 ← built builder
    return [text0]) =
  some [c!"MATCH (n:`a`) WHERE CASE n.value WHEN 'blubb' THEN true ELSE false END RETURN n"] := by decide +kernel

/-- TestSimpleCaseWithMultipleWhenThen -/
example : printed (do
    let node ← (← cypher.ANode c!"a").NamedByString c!"n"
    let builder ← (← (← cypher.Match [(pat node)]).Where (co (← (← (← (← (← cypher.CaseExpression (ex (← node.Property c!"value"))).When (ex (← cypher.LiteralOf (.str c!"blubb")))).Then (ex (← cypher.LiteralTrue))).When (ex (← cypher.LiteralOf (.str c!"bla")))).Then (ex (← cypher.LiteralFalse))))).ReturningByNamed [(nm node)]
    let text0 ← built builder
    return [text0]) =
  some [c!"MATCH (n:`a`) WHERE CASE n.value WHEN 'blubb' THEN true WHEN 'bla' THEN false END RETURN n"] := by decide +kernel

/-- TestSimpleCaseWithMultipleWhenThenAndElse -/
example : printed (do
    let node ← (← cypher.ANode c!"a").NamedByString c!"n"
    let builder ← (← (← cypher.Match [(pat node)]).Where (co (← (← (← (← (← (← cypher.CaseExpression (ex (← node.Property c!"value"))).When (ex (← cypher.LiteralOf (.str c!"blubb")))).Then (ex (← cypher.LiteralTrue))).When (ex (← cypher.LiteralOf (.str c!"bla")))).Then (ex (← cypher.LiteralFalse))).ElseDefault (ex (← cypher.LiteralOf (.int 1)))))).ReturningByNamed [(nm node)]
    let text0 ← built builder
    return [text0]) =
  some [c!"MATCH (n:`a`) WHERE CASE n.value WHEN 'blubb' THEN true WHEN 'bla' THEN false ELSE 1 END RETURN n"] := by decide +kernel

/-- TestGenericCase -/
example : printed (do
    let node ← (← cypher.ANode c!"a").NamedByString c!"n"
    let builder ← (← (← cypher.Match [(pat node)]).Where (co (← (← (← cypher.GenericCaseExpression).When (ex (← (← (← node.Property c!"value").IsEqualTo (ex (← cypher.LiteralOf (.str c!"blubb")))).Get))).Then (ex (← cypher.LiteralTrue))))).ReturningByNamed [(nm node)]
    let text0 ← built builder
    return [text0]) =
  some [c!"MATCH (n:`a`) WHERE CASE WHEN n.value = 'blubb' THEN true END RETURN n"] := by decide +kernel

/-- TestGenericCaseWithElse -/
example : printed (do
    let node ← (← cypher.ANode c!"a").NamedByString c!"n"
    let builder ← (← (← cypher.Match [(pat node)]).Where (co (← (← (← (← cypher.GenericCaseExpression).When (ex (← (← (← node.Property c!"value").IsEqualTo (ex (← cypher.LiteralOf (.str c!"blubb")))).Get))).Then (ex (← cypher.LiteralTrue))).ElseDefault (ex (← cypher.LiteralFalse))))).ReturningByNamed [(nm node)]
    let text0 ← built builder
    return [text0]) =
  some [c!"MATCH (n:`a`) WHERE CASE WHEN n.value = 'blubb' THEN true ELSE false END RETURN n"] := by decide +kernel

/-- TestGenericCaseWithMultipleWhenThen -/
example : printed (do
    let node ← (← cypher.ANode c!"a").NamedByString c!"n"
    let builder ← (← (← cypher.Match [(pat node)]).Where (co (← (← (← (← (← cypher.GenericCaseExpression).When (ex (← (← (← node.Property c!"value").IsEqualTo (ex (← cypher.LiteralOf (.str c!"blubb")))).Get))).Then (ex (← cypher.LiteralTrue))).When (ex (← (← (← node.Property c!"value").IsEqualTo (ex (← cypher.LiteralOf (.str c!"bla")))).Get))).Then (ex (← cypher.LiteralFalse))))).ReturningByNamed [(nm node)]
    let text0 ← built builder
    return [text0]) =
  some [c!"MATCH (n:`a`) WHERE CASE WHEN n.value = 'blubb' THEN true WHEN n.value = 'bla' THEN false END RETURN n"] := by decide +kernel

/-- TestGenericCaseWithMultipleWhenThenAndElse -/
example : printed (do
    let node ← (← cypher.ANode c!"a").NamedByString c!"n"
    let builder ← (← (← cypher.Match [(pat node)]).Where (co (← (← (← (← (← (← cypher.GenericCaseExpression).When (ex (← (← (← node.Property c!"value").IsEqualTo (ex (← cypher.LiteralOf (.str c!"blubb")))).Get))).Then (ex (← cypher.LiteralTrue))).When (ex (← (← (← node.Property c!"value").IsEqualTo (ex (← cypher.LiteralOf (.str c!"bla")))).Get))).Then (ex (← cypher.LiteralFalse))).ElseDefault (ex (← cypher.LiteralOf (.int 1)))))).ReturningByNamed [(nm node)]
    let text0 ← built builder
    return [text0]) =
  some [c!"MATCH (n:`a`) WHERE CASE WHEN n.value = 'blubb' THEN true WHEN n.value = 'bla' THEN false ELSE 1 END RETURN n"] := by decide +kernel

/-- TestCanGetAliasedInReturn -/
example : printed (do
    let node ← cypher.AnyNodeNamed c!"n"
    let builder ← (← cypher.Match [(pat node)]).Returning [(ex (← (← (← (← (← (← (← (← cypher.CaseExpression (ex (← node.Property c!"eyes"))).When (ex (← cypher.LiteralOf (.str c!"blue")))).Then (ex (← cypher.LiteralOf (.int 1)))).When (ex (← cypher.LiteralOf (.str c!"brown")))).Then (ex (← cypher.LiteralOf (.int 2)))).ElseDefault (ex (← cypher.LiteralOf (.int 3)))).As c!"result").Get))]
    let text0 ← built builder
    return [text0]) =
  some [c!"MATCH (n) RETURN CASE n.eyes WHEN 'blue' THEN 1 WHEN 'brown' THEN 2 ELSE 3 END AS result"] := by decide +kernel

/-! ### test_cypher/cypherit/comparison_rendering_test.go -/

/-- TestEqualWithStringLiteral -/
example : printed (do
    let userNode ← userNodeM
    let statement ← (← (← (← cypher.Match [(pat userNode)]).WhereConditionContainer (← (← userNode.Property c!"name").IsEqualTo (ex (← cypher.LiteralOf (.str c!"Test"))))).ReturningByNamed [(nm userNode)]).Build
    let text0 ← rendered statement
    return [text0]) =
  some [c!"MATCH (u:`User`) WHERE u.name = 'Test' RETURN u"] := by decide +kernel

/-- TestEqualWithNumberLiteral -/
example : printed (do
    let userNode ← userNodeM
    let statement ← (← (← (← cypher.Match [(pat userNode)]).WhereConditionContainer (← (← userNode.Property c!"age").IsEqualTo (ex (← cypher.LiteralOf (.int 21))))).ReturningByNamed [(nm userNode)]).Build
    let text0 ← rendered statement
    return [text0]) =
  some [c!"MATCH (u:`User`) WHERE u.age = 21 RETURN u"] := by decide +kernel

/-! ### test_cypher/cypherit/condition_test.go -/

/-- TestConditionChainingAnd -/
example : printed (do
    let userNode ← userNodeM
    let statement ← (← (← (← cypher.Match [(pat userNode)]).WhereConditionContainer (← (← (← userNode.Property c!"name").IsEqualTo (ex (← cypher.LiteralOf (.str c!"Test")))).And (← (← (← userNode.Property c!"age").IsEqualTo (ex (← cypher.LiteralOf (.int 21)))).Get))).ReturningByNamed [(nm userNode)]).Build
    let text0 ← rendered statement
    return [text0]) =
  some [c!"MATCH (u:`User`) WHERE (u.name = 'Test' AND u.age = 21) RETURN u"] := by decide +kernel

/-- TestConditionChainingOr -/
example : printed (do
    let userNode ← userNodeM
    let statement ← (← (← (← cypher.Match [(pat userNode)]).WhereConditionContainer (← (← (← userNode.Property c!"name").IsEqualTo (ex (← cypher.LiteralOf (.str c!"Test")))).Or (co (← (← (← userNode.Property c!"age").IsEqualTo (ex (← cypher.LiteralOf (.int 21)))).Get)))).ReturningByNamed [(nm userNode)]).Build
    let text0 ← rendered statement
    return [text0]) =
  some [c!"MATCH (u:`User`) WHERE (u.name = 'Test' OR u.age = 21) RETURN u"] := by decide +kernel

/-- TestNestedCondition1 -/
example : printed (do
    let userNode ← userNodeM
    let statement ← (← (← (← cypher.Match [(pat userNode)]).WhereConditionContainer (← (← (← cypher.ConditionsIsTrue).Or (co (← cypher.ConditionsIsFalse))).And (← cypher.ConditionsIsTrue))).ReturningByNamed [(nm userNode)]).Build
    let text0 ← rendered statement
    return [text0]) =
  some [c!"MATCH (u:`User`) WHERE ((true OR false) AND true) RETURN u"] := by decide +kernel

/-- TestNestedCondition2 -/
example : printed (do
    let userNode ← userNodeM
    let statement ← (← (← (← (← cypher.Match [(pat userNode)]).WhereConditionContainer (← (← (← cypher.ConditionsIsTrue).Or (co (← cypher.ConditionsIsFalse))).And (← cypher.ConditionsIsTrue))).Or (co (← cypher.ConditionsIsFalse))).ReturningByNamed [(nm userNode)]).Build
    let text0 ← rendered statement
    return [text0]) =
  some [c!"MATCH (u:`User`) WHERE (((true OR false) AND true) OR false) RETURN u"] := by decide +kernel

/-- TestNestedCondition3 -/
example : printed (do
    let userNode ← userNodeM
    let statement ← (← (← (← (← (← cypher.Match [(pat userNode)]).WhereConditionContainer (← (← (← cypher.ConditionsIsTrue).Or (co (← cypher.ConditionsIsFalse))).And (← cypher.ConditionsIsTrue))).Or (co (← cypher.ConditionsIsFalse))).And (← cypher.ConditionsIsFalse)).ReturningByNamed [(nm userNode)]).Build
    let text0 ← rendered statement
    return [text0]) =
  some [c!"MATCH (u:`User`) WHERE ((((true OR false) AND true) OR false) AND false) RETURN u"] := by decide +kernel

/-- TestNestedCondition4 -/
example : printed (do
    let userNode ← userNodeM
    let statement ← (← (← (← (← cypher.Match [(pat userNode)]).WhereConditionContainer (← (← (← cypher.ConditionsIsTrue).Or (co (← cypher.ConditionsIsFalse))).And (← cypher.ConditionsIsTrue))).Or (co (← (← (← cypher.ConditionsIsFalse).And (← cypher.ConditionsIsTrue)).Get))).ReturningByNamed [(nm userNode)]).Build
    let text0 ← rendered statement
    return [text0]) =
  some [c!"MATCH (u:`User`) WHERE ((true OR false) AND true OR (false AND true)) RETURN u"] := by decide +kernel

/-- TestNestedCondition5 -/
example : printed (do
    let userNode ← userNodeM
    let statement ← (← (← (← (← (← cypher.Match [(pat userNode)]).WhereConditionContainer (← (← (← cypher.ConditionsIsTrue).Or (co (← cypher.ConditionsIsFalse))).And (← cypher.ConditionsIsTrue))).Or (co (← (← (← cypher.ConditionsIsFalse).And (← cypher.ConditionsIsTrue)).Get))).And (← cypher.ConditionsIsTrue)).ReturningByNamed [(nm userNode)]).Build
    let text0 ← rendered statement
    return [text0]) =
  some [c!"MATCH (u:`User`) WHERE ((true OR false) AND true OR (false AND true) AND true) RETURN u"] := by decide +kernel

/-- TestNestedCondition6 -/
example : printed (do
    let userNode ← userNodeM
    let statement ← (← (← (← (← cypher.Match [(pat userNode)]).WhereConditionContainer (← (← (← cypher.ConditionsIsTrue).Or (co (← cypher.ConditionsIsFalse))).And (← cypher.ConditionsIsTrue))).Or (co (← (← (← cypher.ConditionsIsFalse).Or (co (← cypher.ConditionsIsTrue))).Get))).ReturningByNamed [(nm userNode)]).Build
    let text0 ← rendered statement
    return [text0]) =
  some [c!"MATCH (u:`User`) WHERE ((true OR false) AND true OR (false OR true)) RETURN u"] := by decide +kernel

/-- TestNestedCondition7 -/
example : printed (do
    let userNode ← userNodeM
    let statement ← (← (← (← cypher.Match [(pat userNode)]).WhereConditionContainer (← (← (← (← cypher.ConditionsIsTrue).Or (co (← cypher.ConditionsIsFalse))).And (← cypher.ConditionsIsTrue)).Or (co (← (← (← cypher.ConditionsIsFalse).Or (co (← cypher.ConditionsIsTrue))).Get)))).ReturningByNamed [(nm userNode)]).Build
    let text0 ← rendered statement
    return [text0]) =
  some [c!"MATCH (u:`User`) WHERE ((true OR false) AND true OR (false OR true)) RETURN u"] := by decide +kernel

/-- TestConditionChainingXor -/
example : printed (do
    let userNode ← userNodeM
    let statement ← (← (← (← cypher.Match [(pat userNode)]).WhereConditionContainer (← (← (← userNode.Property c!"name").IsEqualTo (ex (← cypher.LiteralOf (.str c!"Test")))).Xor (co (← (← (← userNode.Property c!"age").IsEqualTo (ex (← cypher.LiteralOf (.int 21)))).Get)))).ReturningByNamed [(nm userNode)]).Build
    let text0 ← rendered statement
    return [text0]) =
  some [c!"MATCH (u:`User`) WHERE (u.name = 'Test' XOR u.age = 21) RETURN u"] := by decide +kernel

/-- TestMultipleEmptyConditionsMustCollapse -/
example : printed (do
    let userNode ← userNodeM
    let statement ← (← (← (← (← cypher.Match [(pat userNode)]).WhereConditionContainer (← (← cypher.ConditionsNoCondition).Or (co (← cypher.ConditionsNoCondition)))).And (← (← (← (← cypher.ConditionsNoCondition).And (← cypher.ConditionsNoCondition)).Or (co (← cypher.ConditionsNoCondition))).Get)).ReturningByNamed [(nm userNode)]).Build
    let text0 ← rendered statement
    return [text0]) =
  some [c!"MATCH (u:`User`) RETURN u"] := by decide +kernel

/-- TestMultipleEmptyConditionsMustCollapse1 -/
example : printed (do
    let userNode ← userNodeM
    let statement ← (← (← (← cypher.Match [(pat userNode)]).WhereConditionContainer (← (← cypher.ConditionsNoCondition).Or (co (← cypher.ConditionsNoCondition)))).ReturningByNamed [(nm userNode)]).Build
    let text0 ← rendered statement
    return [text0]) =
  some [c!"MATCH (u:`User`) RETURN u"] := by decide +kernel

/-- TestMultipleEmptyConditionsMustCollapse2 -/
example : printed (do
    let userNode ← userNodeM
    let statement ← (← (← (← cypher.Match [(pat userNode)]).WhereConditionContainer (← (← (← cypher.ConditionsNoCondition).And (← cypher.ConditionsNoCondition)).Or (co (← cypher.ConditionsNoCondition)))).ReturningByNamed [(nm userNode)]).Build
    let text0 ← rendered statement
    return [text0]) =
  some [c!"MATCH (u:`User`) RETURN u"] := by decide +kernel

/-- TestMultipleEmptyConditionsMustCollapse3 -/
example : printed (do
    let userNode ← userNodeM
    let statement ← (← (← (← (← cypher.Match [(pat userNode)]).WhereConditionContainer (← (← (← cypher.ConditionsNoCondition).And (← (← (← userNode.Property c!"a").IsEqualTo (ex (← cypher.LiteralTrue))).Get)).Or (co (← cypher.ConditionsNoCondition)))).And (← (← (← (← cypher.ConditionsNoCondition).And (← cypher.ConditionsNoCondition)).Or (co (← cypher.ConditionsNoCondition))).Get)).ReturningByNamed [(nm userNode)]).Build
    let text0 ← rendered statement
    return [text0]) =
  some [c!"MATCH (u:`User`) WHERE u.a = true RETURN u"] := by decide +kernel

/-- TestMultipleEmptyConditionsMustCollapse4 -/
example : printed (do
    let userNode ← userNodeM
    let no ← cypher.ConditionsNoCondition
    let have' ← (← (← userNode.Property c!"a").IsEqualTo (ex (← cypher.LiteralTrue))).Get
    let statement ← (← (← (← cypher.Match [(pat userNode)]).WhereConditionContainer (← (← no.Or (co no)).Or (co have'))).ReturningByNamed [(nm userNode)]).Build
    let text0 ← rendered statement
    return [text0]) =
  some [c!"MATCH (u:`User`) WHERE u.a = true RETURN u"] := by decide +kernel

/-- TestMultipleEmptyConditionsMustCollapse5 -/
example : printed (do
    let userNode ← userNodeM
    let no ← cypher.ConditionsNoCondition
    let have' ← (← (← userNode.Property c!"a").IsEqualTo (ex (← cypher.LiteralTrue))).Get
    let statement ← (← (← (← cypher.Match [(pat userNode)]).WhereConditionContainer (← (← no.And have').Or (co no))).ReturningByNamed [(nm userNode)]).Build
    let text0 ← rendered statement
    return [text0]) =
  some [c!"MATCH (u:`User`) WHERE u.a = true RETURN u"] := by decide +kernel

/-- TestMultipleEmptyConditionsMustCollapse6 -/
example : printed (do
    let userNode ← userNodeM
    let no ← cypher.ConditionsNoCondition
    let have' ← (← (← userNode.Property c!"a").IsEqualTo (ex (← cypher.LiteralTrue))).Get
    let statement ← (← (← (← (← cypher.Match [(pat userNode)]).WhereConditionContainer (← no.Or (co no))).And have').ReturningByNamed [(nm userNode)]).Build
    let text0 ← rendered statement
    return [text0]) =
  some [c!"MATCH (u:`User`) WHERE u.a = true RETURN u"] := by decide +kernel

/-- TestMultipleEmptyConditionsMustCollapse7 -/
example : printed (do
    let userNode ← userNodeM
    let no ← cypher.ConditionsNoCondition
    let a ← (← (← userNode.Property c!"a").IsEqualTo (ex (← cypher.LiteralTrue))).Get
    let b ← (← (← userNode.Property c!"b").IsEqualTo (ex (← cypher.LiteralFalse))).Get
    let statement ← (← (← (← (← cypher.Match [(pat userNode)]).WhereConditionContainer (← (← no.And a).Or (co no))).And (← (← (← no.And b).Or (co no)).Get)).ReturningByNamed [(nm userNode)]).Build
    let text0 ← rendered statement
    return [text0]) =
  some [c!"MATCH (u:`User`) WHERE (u.a = true AND u.b = false) RETURN u"] := by decide +kernel

/-- TestMultipleEmptyConditionsMustCollapse8 -/
example : printed (do
    let userNode ← userNodeM
    let no ← cypher.ConditionsNoCondition
    let a ← (← (← userNode.Property c!"a").IsEqualTo (ex (← cypher.LiteralTrue))).Get
    let b ← (← (← userNode.Property c!"b").IsEqualTo (ex (← cypher.LiteralFalse))).Get
    let statement ← (← (← (← cypher.Match [(pat userNode)]).WhereConditionContainer (← (← (← no.Or (co no)).Or (co a)).And b)).ReturningByNamed [(nm userNode)]).Build
    let text0 ← rendered statement
    return [text0]) =
  some [c!"MATCH (u:`User`) WHERE (u.a = true AND u.b = false) RETURN u"] := by decide +kernel

/-- TestMultipleEmptyConditionsMustCollapse9 -/
example : printed (do
    let userNode ← userNodeM
    let no ← cypher.ConditionsNoCondition
    let a ← (← (← userNode.Property c!"a").IsEqualTo (ex (← cypher.LiteralTrue))).Get
    let b ← (← (← userNode.Property c!"b").IsEqualTo (ex (← cypher.LiteralFalse))).Get
    let statement ← (← (← (← cypher.Match [(pat userNode)]).WhereConditionContainer (← (← (← (← no.Or (co a)).Or (co no)).And b).Or (co no))).ReturningByNamed [(nm userNode)]).Build
    let text0 ← rendered statement
    return [text0]) =
  some [c!"MATCH (u:`User`) WHERE (u.a = true AND u.b = false) RETURN u"] := by decide +kernel

/-- TestChainingOnWhere -/
example : printed (do
    let userNode ← userNodeM
    let test ← cypher.LiteralOf (.str c!"Test")
    let foobar ← cypher.LiteralOf (.str c!"foobar")
    let statement ← (← (← (← cypher.Match [(pat userNode)]).WhereConditionContainer (← (← userNode.Property c!"name").IsEqualTo (ex test))).ReturningByNamed [(nm userNode)]).Build
    let text0 ← rendered statement
    let statement ← (← (← (← (← cypher.Match [(pat userNode)]).WhereConditionContainer (← (← userNode.Property c!"name").IsEqualTo (ex test))).And (← (← (← userNode.Property c!"name").IsEqualTo (ex test)).Get)).ReturningByNamed [(nm userNode)]).Build
    let text1 ← rendered statement
    let statement ← (← (← (← (← (← cypher.Match [(pat userNode)]).WhereConditionContainer (← (← userNode.Property c!"name").IsEqualTo (ex test))).And (← (← (← userNode.Property c!"name").IsEqualTo (ex test)).Get)).And (← (← (← userNode.Property c!"name").IsEqualTo (ex test)).Get)).ReturningByNamed [(nm userNode)]).Build
    let text2 ← rendered statement
    let statement ← (← (← (← (← cypher.Match [(pat userNode)]).WhereConditionContainer (← (← userNode.Property c!"name").IsEqualTo (ex test))).Or (co (← (← (← userNode.Property c!"name").IsEqualTo (ex test)).Get))).ReturningByNamed [(nm userNode)]).Build
    let text3 ← rendered statement
    let statement ← (← (← (← (← (← cypher.Match [(pat userNode)]).WhereConditionContainer (← (← userNode.Property c!"name").IsEqualTo (ex test))).Or (co (← (← (← userNode.Property c!"name").IsEqualTo (ex test)).Get))).Or (co (← (← (← userNode.Property c!"name").IsEqualTo (ex test)).Get))).ReturningByNamed [(nm userNode)]).Build
    let text4 ← rendered statement
    let statement ← (← (← (← (← (← (← cypher.Match [(pat userNode)]).WhereConditionContainer (← (← userNode.Property c!"name").IsEqualTo (ex test))).And (← (← (← userNode.Property c!"name").IsEqualTo (ex test)).Get)).Or (co (← (← (← userNode.Property c!"name").IsEqualTo (ex foobar)).Get))).And (← (← (← userNode.Property c!"name").IsEqualTo (ex test)).Get)).ReturningByNamed [(nm userNode)]).Build
    let text5 ← rendered statement
    let statement ← (← (← (← (← (← (← cypher.Match [(pat userNode)]).WhereConditionContainer (← (← userNode.Property c!"name").IsEqualTo (ex test))).Or (co (← (← (← userNode.Property c!"name").IsEqualTo (ex foobar)).Get))).And (← (← (← userNode.Property c!"name").IsEqualTo (ex test)).Get)).And (← (← (← userNode.Property c!"name").IsEqualTo (ex test)).Get)).ReturningByNamed [(nm userNode)]).Build
    let text6 ← rendered statement
    let statement ← (← (← (← (← (← (← (← cypher.Match [(pat userNode)]).WhereConditionContainer (← (← userNode.Property c!"name").IsEqualTo (ex test))).Or (co (← (← (← userNode.Property c!"name").IsEqualTo (ex foobar)).Get))).And (← (← (← userNode.Property c!"name").IsEqualTo (ex test)).Get)).Or (co (← (← (← userNode.Property c!"name").IsEqualTo (ex foobar)).Get))).And (← (← (← userNode.Property c!"name").IsEqualTo (ex test)).Get)).ReturningByNamed [(nm userNode)]).Build
    let text7 ← rendered statement
    let statement ← (← (← (← (← (← cypher.Match [(pat userNode)]).WhereConditionContainer (← (← userNode.Property c!"name").IsNotNull)).And (← (← (← userNode.Property c!"name").IsEqualTo (ex test)).Get)).Or (co (← (← (← userNode.Property c!"age").IsEqualTo (ex (← cypher.LiteralOf (.int 21)))).Get))).ReturningByNamed [(nm userNode)]).Build
    let text8 ← rendered statement
    return [text0, text1, text2, text3, text4, text5, text6, text7, text8]) =
  some [c!"MATCH (u:`User`) WHERE u.name = 'Test' RETURN u",
    c!"MATCH (u:`User`) WHERE (u.name = 'Test' AND u.name = 'Test') RETURN u",
    c!"MATCH (u:`User`) WHERE (u.name = 'Test' AND u.name = 'Test' AND u.name = 'Test') RETURN u",
    c!"MATCH (u:`User`) WHERE (u.name = 'Test' OR u.name = 'Test') RETURN u",
    c!"MATCH (u:`User`) WHERE (u.name = 'Test' OR u.name = 'Test' OR u.name = 'Test') RETURN u",
    c!"MATCH (u:`User`) WHERE (((u.name = 'Test' AND u.name = 'Test') OR u.name = 'foobar') AND u.name = 'Test') RETURN u",
    c!"MATCH (u:`User`) WHERE ((u.name = 'Test' OR u.name = 'foobar') AND u.name = 'Test' AND u.name = 'Test') RETURN u",
    c!"MATCH (u:`User`) WHERE ((((u.name = 'Test' OR u.name = 'foobar') AND u.name = 'Test') OR u.name = 'foobar') AND u.name = 'Test') RETURN u",
    c!"MATCH (u:`User`) WHERE ((u.name IS NOT NULL AND u.name = 'Test') OR u.age = 21) RETURN u"] := by decide +kernel

/-- TestChainingOnCondition -/
example : printed (do
    let userNode ← userNodeM
    let test ← cypher.LiteralOf (.str c!"Test")
    let foobar ← cypher.LiteralOf (.str c!"foobar")
    let bazbar ← cypher.LiteralOf (.str c!"bazbar")
    let statement ← (← (← (← cypher.Match [(pat userNode)]).WhereConditionContainer (← (← (← (← userNode.Property c!"name").IsEqualTo (ex test)).Or (co (← (← (← userNode.Property c!"name").IsEqualTo (ex foobar)).Get))).Or (co (← (← (← userNode.Property c!"name").IsEqualTo (ex foobar)).Get)))).ReturningByNamed [(nm userNode)]).Build
    let text0 ← rendered statement
    let statement ← (← (← (← cypher.Match [(pat userNode)]).WhereConditionContainer (← (← (← (← (← userNode.Property c!"name").IsEqualTo (ex test)).And (← (← (← userNode.Property c!"name").IsEqualTo (ex bazbar)).Get)).Or (co (← (← (← userNode.Property c!"name").IsEqualTo (ex foobar)).Get))).Or (co (← (← (← userNode.Property c!"name").IsEqualTo (ex foobar)).Get)))).ReturningByNamed [(nm userNode)]).Build
    let text1 ← rendered statement
    let statement ← (← (← (← cypher.Match [(pat userNode)]).WhereConditionContainer (← (← (← userNode.Property c!"name").IsEqualTo (ex test)).And (← (← (← (← userNode.Property c!"name").IsEqualTo (ex bazbar)).And (← (← (← userNode.Property c!"name").IsEqualTo (ex foobar)).Get)).Get))).ReturningByNamed [(nm userNode)]).Build
    let text2 ← rendered statement
    let statement ← (← (← (← cypher.Match [(pat userNode)]).WhereConditionContainer (← (← (← (← (← userNode.Property c!"name").IsEqualTo (ex test)).And (← (← (← userNode.Property c!"name").IsEqualTo (ex bazbar)).Get)).Or (co (← (← (← userNode.Property c!"name").IsEqualTo (ex foobar)).Get))).Or (co (← (← (← userNode.Property c!"name").IsEqualTo (ex foobar)).Get)))).ReturningByNamed [(nm userNode)]).Build
    let text3 ← rendered statement
    let statement ← (← (← (← cypher.Match [(pat userNode)]).WhereConditionContainer (← (← (← (← (← (← userNode.Property c!"name").IsEqualTo (ex test)).And (← (← (← userNode.Property c!"name").IsEqualTo (ex bazbar)).Get)).Or (co (← (← (← userNode.Property c!"name").IsEqualTo (ex foobar)).Get))).Or (co (← (← (← userNode.Property c!"name").IsEqualTo (ex foobar)).Get))).And (← (← (← userNode.Property c!"name").IsEqualTo (ex bazbar)).Get))).ReturningByNamed [(nm userNode)]).Build
    let text4 ← rendered statement
    return [text0, text1, text2, text3, text4]) =
  some [c!"MATCH (u:`User`) WHERE (u.name = 'Test' OR u.name = 'foobar' OR u.name = 'foobar') RETURN u",
    c!"MATCH (u:`User`) WHERE ((u.name = 'Test' AND u.name = 'bazbar') OR u.name = 'foobar' OR u.name = 'foobar') RETURN u",
    c!"MATCH (u:`User`) WHERE (u.name = 'Test' AND u.name = 'bazbar' AND u.name = 'foobar') RETURN u",
    c!"MATCH (u:`User`) WHERE ((u.name = 'Test' AND u.name = 'bazbar') OR u.name = 'foobar' OR u.name = 'foobar') RETURN u",
    c!"MATCH (u:`User`) WHERE (((u.name = 'Test' AND u.name = 'bazbar') OR u.name = 'foobar' OR u.name = 'foobar') AND u.name = 'bazbar') RETURN u"] := by decide +kernel

/-- TestChainingCombined -/
example : printed (do
    let userNode ← userNodeM
    let test ← cypher.LiteralOf (.str c!"Test")
    let foobar ← cypher.LiteralOf (.str c!"foobar")
    let bazbar ← cypher.LiteralOf (.str c!"bazbar")
    let statement ← (← (← (← (← cypher.Match [(pat userNode)]).WhereConditionContainer (← (← (← (← (← userNode.Property c!"name").IsEqualTo (ex test)).And (← (← (← userNode.Property c!"name").IsEqualTo (ex bazbar)).Get)).Or (co (← (← (← userNode.Property c!"name").IsEqualTo (ex foobar)).Get))).Or (co (← (← (← userNode.Property c!"name").IsEqualTo (ex foobar)).Get)))).And (← (← (← (← (← (← userNode.Property c!"name").IsEqualTo (ex bazbar)).And (← (← (← userNode.Property c!"name").IsEqualTo (ex foobar)).Get)).Or (co (← (← (← userNode.Property c!"name").IsEqualTo (ex test)).Get))).Not).Get)).ReturningByNamed [(nm userNode)]).Build
    let text0 ← rendered statement
    return [text0]) =
  some [c!"MATCH (u:`User`) WHERE (((u.name = 'Test' AND u.name = 'bazbar') OR u.name = 'foobar' OR u.name = 'foobar') AND NOT (((u.name = 'bazbar' AND u.name = 'foobar') OR u.name = 'Test'))) RETURN u"] := by decide +kernel

/-- TestNegatedCondition -/
example : printed (do
    let userNode ← userNodeM
    let statement ← (← (← (← cypher.Match [(pat userNode)]).WhereConditionContainer (← (← (← userNode.Property c!"name").IsNotNull).Not)).ReturningByNamed [(nm userNode)]).Build
    let text0 ← rendered statement
    return [text0]) =
  some [c!"MATCH (u:`User`) WHERE NOT (u.name IS NOT NULL) RETURN u"] := by decide +kernel

/-- TestNoConditionShouldNotBeRendered -/
example : printed (do
    let userNode ← userNodeM
    let statement ← (← (← (← cypher.Match [(pat userNode)]).Where (co (← cypher.ConditionsNoCondition))).ReturningByNamed [(nm userNode)]).Build
    let text0 ← rendered statement
    let statement ← (← (← (← (← cypher.Match [(pat userNode)]).WhereConditionContainer (← (← userNode.Property c!"name").IsEqualTo (ex (← cypher.LiteralOf (.str c!"test"))))).And (← (← (← cypher.ConditionsNoCondition).Or (co (← cypher.ConditionsNoCondition))).Get)).ReturningByNamed [(nm userNode)]).Build
    let text1 ← rendered statement
    return [text0, text1]) =
  some [c!"MATCH (u:`User`) RETURN u",
    c!"MATCH (u:`User`) WHERE u.name = 'test' RETURN u"] := by decide +kernel

/-! ### test_cypher/cypherit/create_clause_test.go -/

/-- TestShouldRenderCreateWithoutReturn -/
example : printed (do
    let userNode ← userNodeM
    let bikeNode ← bikeNodeM
    let builder ← cypher.Create [(pat userNode)]
    let text0 ← built builder
    let builder ← cypher.Create [(pat (← (← userNode.RelationshipTo bikeNode [c!"OWNS"]).NamedByString c!"o"))]
    let text1 ← built builder
    return [text0, text1]) =
  some [c!"CREATE (u:`User`)",
    c!"CREATE (u:`User`)-[o:`OWNS`]->(b:`Bike`)"] := by decide +kernel

/-- TestShouldRenderMultipleCreatesWithoutReturn -/
example : printed (do
    let userNode ← userNodeM
    let bikeNode ← bikeNodeM
    let builder ← (← cypher.Create [(pat userNode)]).Create [(pat bikeNode)]
    let text0 ← built builder
    let builder ← (← cypher.Create [(pat (← (← userNode.RelationshipTo bikeNode [c!"OWNS"]).NamedByString c!"o"))]).Create [(pat (← OtherNode))]
    let text1 ← built builder
    return [text0, text1]) =
  some [c!"CREATE (u:`User`) CREATE (b:`Bike`)",
    c!"CREATE (u:`User`)-[o:`OWNS`]->(b:`Bike`) CREATE (other:`Other`)"] := by decide +kernel

/-- TestShouldRenderCreateReturn -/
example : printed (do
    let userNode ← userNodeM
    let bikeNode ← bikeNodeM
    let builder ← (← cypher.Create [(pat userNode)]).ReturningByNamed [(nm userNode)]
    let text0 ← built builder
    let r ← (← userNode.RelationshipTo bikeNode [c!"OWNS"]).NamedByString c!"o"
    let builder ← (← cypher.Create [(pat r)]).ReturningByNamed [(nm userNode), (nm r)]
    let text1 ← built builder
    let builder ← (← (← (← (← cypher.Create [(pat userNode)]).ReturningByNamed [(nm userNode)]).OrderBy (ex (← userNode.Property c!"name"))).Skip 23).Limit 42
    let text2 ← built builder
    return [text0, text1, text2]) =
  some [c!"CREATE (u:`User`) RETURN u",
    c!"CREATE (u:`User`)-[o:`OWNS`]->(b:`Bike`) RETURN u, o",
    c!"CREATE (u:`User`) RETURN u ORDER BY u.name SKIP 23 LIMIT 42"] := by decide +kernel

/-- TestShouldRenderMultipleCreatesReturn -/
example : printed (do
    let userNode ← userNodeM
    let bikeNode ← bikeNodeM
    let builder ← (← (← cypher.Create [(pat userNode)]).Create [(pat bikeNode)]).ReturningByNamed [(nm userNode)]
    let text0 ← built builder
    let r ← (← userNode.RelationshipTo bikeNode [c!"OWNS"]).NamedByString c!"o"
    let builder ← (← (← cypher.Create [(pat r)]).Create [(pat (← OtherNode))]).ReturningByNamed [(nm userNode), (nm r)]
    let text1 ← built builder
    return [text0, text1]) =
  some [c!"CREATE (u:`User`) CREATE (b:`Bike`) RETURN u",
    c!"CREATE (u:`User`)-[o:`OWNS`]->(b:`Bike`) CREATE (other:`Other`) RETURN u, o"] := by decide +kernel

/-- TestShouldRenderCreateWithWith -/
example : printed (do
    let userNode ← userNodeM
    let builder ← (← (← cypher.Create [(pat userNode)]).WithByNamed [(nm userNode)]).ReturningByNamed [(nm userNode)]
    let text0 ← built builder
    let builder ← (← (← cypher.Create [(pat userNode)]).WithByNamed [(nm userNode)]).Set [(ex (← (← userNode.Property c!"x").To (ex (← cypher.LiteralOf (.str c!"y")))))]
    let text1 ← built builder
    return [text0, text1]) =
  some [c!"CREATE (u:`User`) WITH u RETURN u",
    c!"CREATE (u:`User`) WITH u SET u.x = 'y'"] := by decide +kernel

/-- TestMatchShouldExposeCreate -/
example : printed (do
    let userNode ← userNodeM
    let bikeNode ← bikeNodeM
    let builder ← (← cypher.Match [(pat userNode)]).Create [(pat (← (← userNode.RelationshipTo bikeNode [c!"OWNS"]).NamedByString c!"o"))]
    let text0 ← built builder
    return [text0]) =
  some [c!"MATCH (u:`User`) CREATE (u)-[o:`OWNS`]->(b:`Bike`)"] := by decide +kernel

/-- TestWithShouldExposeCreate -/
example : printed (do
    let userNode ← userNodeM
    let bikeNode ← bikeNodeM
    let builder ← (← (← cypher.Match [(pat userNode)]).WithDistinctByNamed [(nm userNode)]).Create [(pat (← (← userNode.RelationshipTo bikeNode [c!"OWNS"]).NamedByString c!"o"))]
    let text0 ← built builder
    return [text0]) =
  some [c!"MATCH (u:`User`) WITH DISTINCT u CREATE (u)-[o:`OWNS`]->(b:`Bike`)"] := by decide +kernel

/-! ### test_cypher/cypherit/delete_clause_test.go -/

/-- TestShouldRenderDeleteWithoutReturn -/
example : printed (do
    let userNode ← userNodeM
    let bikeNode ← bikeNodeM
    let builder ← (← cypher.Match [(pat userNode)]).DetachDeleteByNamed [(nm userNode)]
    let text0 ← built builder
    let builder ← (← (← cypher.Match [(pat userNode)]).WithByNamed [(nm userNode)]).DetachDeleteByNamed [(nm userNode)]
    let text1 ← built builder
    let builder ← (← (← (← cypher.Match [(pat userNode)]).WhereConditionContainer (← (← userNode.Property c!"a").IsNotNull)).And (← (← (← userNode.Property c!"b").IsNull).Get)).DeleteByNamed [(nm userNode)]
    let text2 ← built builder
    let builder ← (← cypher.Match [(pat userNode), (pat bikeNode)]).DeleteByNamed [(nm userNode), (nm bikeNode)]
    let text3 ← built builder
    return [text0, text1, text2, text3]) =
  some [c!"MATCH (u:`User`) DETACH DELETE u",
    c!"MATCH (u:`User`) WITH u DETACH DELETE u",
    c!"MATCH (u:`User`) WHERE (u.a IS NOT NULL AND u.b IS NULL) DELETE u",
    c!"MATCH (u:`User`), (b:`Bike`) DELETE u, b"] := by decide +kernel

/-- TestShouldRenderDeleteWithReturn -/
example : printed (do
    let userNode ← userNodeM
    let bikeNode ← bikeNodeM
    let builder ← (← (← cypher.Match [(pat userNode)]).DetachDeleteByNamed [(nm userNode)]).ReturningByNamed [(nm userNode)]
    let text0 ← built builder
    let builder ← (← (← (← (← (← (← (← (← cypher.Match [(pat userNode)]).WhereConditionContainer (← (← userNode.Property c!"a").IsNotNull)).And (← (← (← userNode.Property c!"b").IsNull).Get)).DetachDeleteByNamed [(nm userNode)]).ReturningByNamed [(nm userNode)]).OrderBy (ex (← userNode.Property c!"a"))).Ascending).Skip 2).Limit 1
    let text1 ← built builder
    let builder ← (← (← (← (← (← (← (← (← cypher.Match [(pat userNode)]).WhereConditionContainer (← (← userNode.Property c!"a").IsNotNull)).And (← (← (← userNode.Property c!"b").IsNull).Get)).DetachDeleteByNamed [(nm userNode)]).ReturningDistinctByNamed [(nm userNode)]).OrderBy (ex (← userNode.Property c!"a"))).Ascending).Skip 2).Limit 1
    let text2 ← built builder
    let builder ← (← cypher.Match [(pat userNode), (pat bikeNode)]).DeleteByNamed [(nm userNode), (nm bikeNode)]
    let text3 ← built builder
    return [text0, text1, text2, text3]) =
  some [c!"MATCH (u:`User`) DETACH DELETE u RETURN u",
    c!"MATCH (u:`User`) WHERE (u.a IS NOT NULL AND u.b IS NULL) DETACH DELETE u RETURN u ORDER BY u.a ASC SKIP 2 LIMIT 1",
    c!"MATCH (u:`User`) WHERE (u.a IS NOT NULL AND u.b IS NULL) DETACH DELETE u RETURN DISTINCT u ORDER BY u.a ASC SKIP 2 LIMIT 1",
    c!"MATCH (u:`User`), (b:`Bike`) DELETE u, b"] := by decide +kernel

/-- TestShouldRenderNodeDelete -/
example : printed (do
    let n ← cypher.AnyNodeNamed c!"n"
    let r ← (← n.RelationshipBetween (← cypher.AnyNode) []).NamedByString c!"r0"
    let builder ← (← (← (← cypher.Match [(pat n)]).WhereConditionContainer (← (← n.InternalId).IsEqualTo (ex (← cypher.LiteralOf (.int 4711))))).OptionalMatch [(pat r)]).DeleteByNamed [(nm r), (nm n)]
    let text0 ← built builder
    return [text0]) =
  some [c!"MATCH (n) WHERE id(n) = 4711 OPTIONAL MATCH (n)-[r0]-() DELETE r0, n"] := by decide +kernel

/-- TestShouldRenderChainedDeletes -/
example : printed (do
    let userNode ← userNodeM
    let bikeNode ← bikeNodeM
    let n ← cypher.AnyNodeNamed c!"n"
    let r ← (← n.RelationshipBetween (← cypher.AnyNode) []).NamedByString c!"r0"
    let builder ← (← (← (← (← (← cypher.Match [(pat n)]).WhereConditionContainer (← (← n.InternalId).IsEqualTo (ex (← cypher.LiteralOf (.int 4711))))).OptionalMatch [(pat r)]).DeleteByNamed [(nm r), (nm n)]).DeleteByNamed [(nm bikeNode)]).DetachDeleteByNamed [(nm userNode)]
    let text0 ← built builder
    return [text0]) =
  some [c!"MATCH (n) WHERE id(n) = 4711 OPTIONAL MATCH (n)-[r0]-() DELETE r0, n DELETE b DETACH DELETE u"] := by decide +kernel

end Verif
