import Verif.Replay

/-
The tests of the package in test_cypher/cypherit/remove_clause_test.go … test_cypher/cypherit/with_and_order_test.go, translated by tools/replay.py: each `example` makes the calls of the test
in the model and compares what is printed with the text that the test expects.
-/

namespace Verif

/-! ### test_cypher/cypherit/remove_clause_test.go -/

/-- TestShouldRenderRemoveOnNodes -/
example : printed (do
    let userNode ← userNodeM
    let builder ← (← (← cypher.Match [(pat userNode)]).RemoveByNode userNode [c!"A", c!"B"]).ReturningByNamed [(nm userNode)]
    let text0 ← built builder
    let builder ← (← (← (← (← cypher.Match [(pat userNode)]).WithByNamed [(nm userNode)]).SetByNode userNode [c!"A", c!"B"]).RemoveByNode userNode [c!"C", c!"D"]).ReturningByNamed [(nm userNode)]
    let text1 ← built builder
    return [text0, text1]) =
  some [c!"MATCH (u:`User`) REMOVE u:`A`:`B` RETURN u",
    c!"MATCH (u:`User`) WITH u SET u:`A`:`B` REMOVE u:`C`:`D` RETURN u"] := by decide +kernel

/-- TestShouldRenderRemoveOfProperties -/
example : printed (do
    let userNode ← userNodeM
    let builder ← (← (← cypher.Match [(pat userNode)]).Remove [(ex (← userNode.Property c!"a")), (ex (← userNode.Property c!"b"))]).ReturningByNamed [(nm userNode)]
    let text0 ← built builder
    let builder ← (← (← (← (← cypher.Match [(pat userNode)]).WithByNamed [(nm userNode)]).Remove [(ex (← userNode.Property c!"a"))]).Remove [(ex (← userNode.Property c!"b"))]).ReturningByNamed [(nm userNode)]
    let text1 ← built builder
    return [text0, text1]) =
  some [c!"MATCH (u:`User`) REMOVE u.a, u.b RETURN u",
    c!"MATCH (u:`User`) WITH u REMOVE u.a REMOVE u.b RETURN u"] := by decide +kernel

/-! ### test_cypher/cypherit/set_clause_test.go -/

/-- TestShouldRenderSetAfterCreate -/
example : printed (do
    let userNode ← userNodeM
    let builder ← (← cypher.Create [(pat userNode)]).Set [(ex (← (← userNode.Property c!"p").To (ex (← cypher.LiteralOf (.str c!"Hallo, Welt")))))]
    let text0 ← built builder
    return [text0]) =
  some [c!"CREATE (u:`User`) SET u.p = 'Hallo, Welt'"] := by decide +kernel

/-- TestShouldRenderSetAfterMerge -/
example : printed (do
    let userNode ← userNodeM
    let builder ← (← cypher.Merge [(pat userNode)]).Set [(ex (← (← userNode.Property c!"p").To (ex (← cypher.LiteralOf (.str c!"Hallo, Welt")))))]
    let text0 ← built builder
    return [text0]) =
  some [c!"MERGE (u:`User`) SET u.p = 'Hallo, Welt'"] := by decide +kernel

/-- TestShouldRenderSetAfterCreateAndWith -/
example : printed (do
    let userNode ← userNodeM
    let builder ← (← (← cypher.Create [(pat userNode)]).WithByNamed [(nm userNode)]).Set [(ex (← (← userNode.Property c!"p").To (ex (← cypher.LiteralOf (.str c!"Hallo, Welt")))))]
    let text0 ← built builder
    return [text0]) =
  some [c!"CREATE (u:`User`) WITH u SET u.p = 'Hallo, Welt'"] := by decide +kernel

/-- TestShouldRenderSetAfterMergeAndWith -/
example : printed (do
    let userNode ← userNodeM
    let builder ← (← (← cypher.Merge [(pat userNode)]).WithByNamed [(nm userNode)]).Set [(ex (← (← userNode.Property c!"p").To (ex (← cypher.LiteralOf (.str c!"Hallo, Welt")))))]
    let text0 ← built builder
    return [text0]) =
  some [c!"MERGE (u:`User`) WITH u SET u.p = 'Hallo, Welt'"] := by decide +kernel

/-- TestShouldRenderSet -/
example : printed (do
    let userNode ← userNodeM
    let builder ← (← cypher.Match [(pat userNode)]).Set [(ex (← (← userNode.Property c!"p").To (ex (← cypher.LiteralOf (.str c!"Hallo, Welt")))))]
    let text0 ← built builder
    let builder ← (← (← cypher.Match [(pat userNode)]).Set [(ex (← (← userNode.Property c!"p").To (ex (← cypher.LiteralOf (.str c!"Hallo, Welt")))))]).Set [(ex (← (← userNode.Property c!"a").To (ex (← cypher.LiteralOf (.str c!"Selber hallo.")))))]
    let text1 ← built builder
    let builder ← (← cypher.Match [(pat userNode)]).Set [(ex (← (← userNode.Property c!"p").To (ex (← cypher.LiteralOf (.str c!"Hallo"))))), (ex (← (← userNode.Property c!"g").To (ex (← cypher.LiteralOf (.str c!"Welt")))))]
    let text2 ← built builder
    return [text0, text1, text2]) =
  some [c!"MATCH (u:`User`) SET u.p = 'Hallo, Welt'",
    c!"MATCH (u:`User`) SET u.p = 'Hallo, Welt' SET u.a = 'Selber hallo.'",
    c!"MATCH (u:`User`) SET u.p = 'Hallo', u.g = 'Welt'"] := by decide +kernel

/-- TestShouldRenderSetOnNodes -/
example : printed (do
    let userNode ← userNodeM
    let builder ← (← (← cypher.Match [(pat userNode)]).SetByNode userNode [c!"A", c!"B"]).ReturningByNamed [(nm userNode)]
    let text0 ← built builder
    let builder ← (← (← (← (← cypher.Match [(pat userNode)]).WithByNamed [(nm userNode)]).SetByNode userNode [c!"A", c!"B"]).SetByNode userNode [c!"C", c!"D"]).ReturningByNamed [(nm userNode)]
    let text1 ← built builder
    return [text0, text1]) =
  some [c!"MATCH (u:`User`) SET u:`A`:`B` RETURN u",
    c!"MATCH (u:`User`) WITH u SET u:`A`:`B` SET u:`C`:`D` RETURN u"] := by decide +kernel

/-- TestShouldRenderMixedSet -/
example : printed (do
    let userNode ← userNodeM
    let builder ← (← (← (← (← (← cypher.Match [(pat userNode)]).Set [(ex (← userNode.Property c!"p1")), (ex (← cypher.LiteralOf (.str c!"Two expressions")))]).Set [(ex (← userNode.Property c!"p2")), (ex (← cypher.LiteralOf (.str c!"A set expression")))]).Set [(ex (← userNode.Property c!"p3")), (ex (← cypher.LiteralOf (.str c!"One of two set expression"))), (ex (← userNode.Property c!"p4")), (ex (← cypher.LiteralOf (.str c!"Two of two set expression")))]).Set [(ex (← userNode.Property c!"p5")), (ex (← cypher.LiteralOf (.str c!"Pair one of 2 expressions"))), (ex (← userNode.Property c!"p6")), (ex (← cypher.LiteralOf (.str c!"Pair two of 4 expressions")))]).Returning [(ex (← cypher.AnAsterisk))]
    let text0 ← built builder
    return [text0]) =
  some [c!"MATCH (u:`User`) SET u.p1 = 'Two expressions' SET u.p2 = 'A set expression' SET u.p3 = 'One of two set expression', u.p4 = 'Two of two set expression' SET u.p5 = 'Pair one of 2 expressions', u.p6 = 'Pair two of 4 expressions' RETURN *"] := by decide +kernel

/-! ### test_cypher/cypherit/single_query_multi_part_test.go -/

/-- TestSimpleWith -/
example : printed (do
    let userNode ← userNodeM
    let bikeNode ← bikeNodeM
    let statement ← (← (← (← (← cypher.Match [(pat (← userNode.RelationshipTo bikeNode [c!"OWNS"]))]).Where (co (← (← (← userNode.Property c!"a").IsNull).Get))).WithByNamed [(nm bikeNode), (nm userNode)]).ReturningByNamed [(nm bikeNode)]).Build
    let text0 ← rendered statement
    return [text0]) =
  some [c!"MATCH (u:`User`)-[:`OWNS`]->(b:`Bike`) WHERE u.a IS NULL WITH b, u RETURN b"] := by decide +kernel

/-- TestShouldRendererLeadingWith -/
example : printed (do
    let statement ← (← (← (← (← cypher.With [(ex (← (← (← cypher.AParam c!"listOfPropertyMaps").As c!"p").Get))]).UnwindByString c!"p").As c!"item").ReturningByString [c!"item"]).Build
    let text0 ← rendered statement
    return [text0]) =
  some [c!"WITH $listOfPropertyMaps AS p UNWIND p AS item RETURN item"] := by decide +kernel

/-- TestSimpleWithChained -/
example : printed (do
    let userNode ← userNodeM
    let bikeNode ← bikeNodeM
    let tripNode ← (← cypher.ANode c!"Trip").NamedByString c!"t"
    let statement ← (← (← (← (← (← (← (← cypher.Match [(pat (← userNode.RelationshipTo bikeNode [c!"OWNS"]))]).Where (co (← (← (← userNode.Property c!"a").IsNull).Get))).WithByNamed [(nm bikeNode), (nm userNode)]).Match [(pat tripNode)]).Where (co (← (← (← tripNode.Property c!"name").IsEqualTo (ex (← cypher.LiteralOf (.str c!"Festive500")))).Get))).WithByNamed [(nm bikeNode), (nm userNode), (nm tripNode)]).ReturningByNamed [(nm bikeNode), (nm userNode), (nm tripNode)]).Build
    let text0 ← rendered statement
    return [text0]) =
  some [c!"MATCH (u:`User`)-[:`OWNS`]->(b:`Bike`) WHERE u.a IS NULL WITH b, u MATCH (t:`Trip`) WHERE t.name = 'Festive500' WITH b, u, t RETURN b, u, t"] := by decide +kernel

/-- TestDeletingSimpleWith -/
example : printed (do
    let userNode ← userNodeM
    let bikeNode ← bikeNodeM
    let statement ← (← (← (← (← (← cypher.Match [(pat (← userNode.RelationshipTo bikeNode [c!"OWNS"]))]).Where (co (← (← (← userNode.Property c!"a").IsNull).Get))).DeleteByNamed [(nm userNode)]).WithByNamed [(nm bikeNode), (nm userNode)]).ReturningByNamed [(nm bikeNode), (nm userNode)]).Build
    let text0 ← rendered statement
    return [text0]) =
  some [c!"MATCH (u:`User`)-[:`OWNS`]->(b:`Bike`) WHERE u.a IS NULL DELETE u WITH b, u RETURN b, u"] := by decide +kernel

/-- TestDeletingSimpleWithReverse -/
example : printed (do
    let userNode ← userNodeM
    let bikeNode ← bikeNodeM
    let statement ← (← (← (← (← (← cypher.Match [(pat (← userNode.RelationshipTo bikeNode [c!"OWNS"]))]).Where (co (← (← (← userNode.Property c!"a").IsNull).Get))).WithByNamed [(nm bikeNode), (nm userNode)]).DeleteByNamed [(nm userNode)]).ReturningByNamed [(nm bikeNode), (nm userNode)]).Build
    let text0 ← rendered statement
    return [text0]) =
  some [c!"MATCH (u:`User`)-[:`OWNS`]->(b:`Bike`) WHERE u.a IS NULL WITH b, u DELETE u RETURN b, u"] := by decide +kernel

/-- TestMixedClauseWithWith -/
example : printed (do
    let userNode ← userNodeM
    let bikeNode ← bikeNodeM
    let tripNode ← (← cypher.ANode c!"Trip").NamedByString c!"t"
    let statement ← (← (← (← (← (← (← (← cypher.Match [(pat (← userNode.RelationshipTo bikeNode [c!"OWNS"]))]).Match [(pat tripNode)]).DeleteByNamed [(nm tripNode)]).WithByNamed [(nm bikeNode), (nm tripNode)]).Match [(pat userNode)]).WithByNamed [(nm bikeNode), (nm userNode)]).ReturningByNamed [(nm bikeNode), (nm userNode)]).Build
    let text0 ← rendered statement
    return [text0]) =
  some [c!"MATCH (u:`User`)-[:`OWNS`]->(b:`Bike`) MATCH (t:`Trip`) DELETE t WITH b, t MATCH (u) WITH b, u RETURN b, u"] := by decide +kernel

/-! ### test_cypher/cypherit/single_query_single_part/reading_and_return_test.go -/

/-- TestUnrelatedNode -/
example : printed (do
    let userNode ← userNodeM
    let bikeNode ← bikeNodeM
    let statement ← (← (← cypher.Match [(pat bikeNode), (pat userNode), (pat (← (← cypher.ANode c!"U").NamedByString c!"o"))]).ReturningByNamed [(nm bikeNode), (nm userNode)]).Build
    let text0 ← rendered statement
    return [text0]) =
  some [c!"MATCH (b:`Bike`), (u:`User`), (o:`U`) RETURN b, u"] := by decide +kernel

/-- TestAsteriskShouldWork -/
example : printed (do
    let userNode ← userNodeM
    let bikeNode ← bikeNodeM
    let statement ← (← (← cypher.Match [(pat bikeNode), (pat userNode), (pat (← (← cypher.ANode c!"U").NamedByString c!"o"))]).Returning [(ex (← cypher.AnAsterisk))]).Build
    let text0 ← rendered statement
    return [text0]) =
  some [c!"MATCH (b:`Bike`), (u:`User`), (o:`U`) RETURN *"] := by decide +kernel

/-- TestAliasedExpressionInReturn -/
example : printed (do
    let unnamedNode ← (← cypher.ANode c!"ANode").NamedByString c!"anode"
    let namedNode ← (← cypher.ANode c!"AnotherNode").NamedByString c!"o"
    let statement ← (← (← cypher.Match [(pat unnamedNode), (pat namedNode)]).Returning [(ex (← namedNode.As c!"theOtherNode"))]).Build
    let text0 ← rendered statement
    return [text0]) =
  some [c!"MATCH (anode:`ANode`), (o:`AnotherNode`) RETURN o AS theOtherNode"] := by decide +kernel

/-- TestSimpleRelationship -/
example : printed (do
    let userNode ← userNodeM
    let bikeNode ← bikeNodeM
    let statement ← (← (← cypher.Match [(pat (← userNode.RelationshipTo bikeNode [c!"OWNS"]))]).ReturningByNamed [(nm bikeNode), (nm userNode)]).Build
    let text0 ← rendered statement
    return [text0]) =
  some [c!"MATCH (u:`User`)-[:`OWNS`]->(b:`Bike`) RETURN b, u"] := by decide +kernel

/-- TestMultipleRelationshipTypes -/
example : printed (do
    let userNode ← userNodeM
    let bikeNode ← bikeNodeM
    let statement ← (← (← cypher.Match [(pat (← userNode.RelationshipTo bikeNode [c!"OWNS", c!"RIDES"]))]).ReturningByNamed [(nm bikeNode), (nm userNode)]).Build
    let text0 ← rendered statement
    return [text0]) =
  some [c!"MATCH (u:`User`)-[:`OWNS`|`RIDES`]->(b:`Bike`) RETURN b, u"] := by decide +kernel

/-- TestRelationshipWithProperties -/
example : printed (do
    let userNode ← userNodeM
    let bikeNode ← bikeNodeM
    let statement ← (← (← cypher.Match [(pat (← (← userNode.RelationshipTo bikeNode [c!"OWNS"]).WithProperties (ex (← cypher.MapOf [(.str c!"boughtOn"), (obj (← cypher.LiteralOf (.str c!"2019-04-16")))]))))]).ReturningByNamed [(nm bikeNode), (nm userNode)]).Build
    let text0 ← rendered statement
    return [text0]) =
  some [c!"MATCH (u:`User`)-[:`OWNS` {boughtOn: '2019-04-16'}]->(b:`Bike`) RETURN b, u"] := by decide +kernel

/-- TestRelationshipWithMinimumLength -/
example : printed (do
    let userNode ← userNodeM
    let bikeNode ← bikeNodeM
    let statement ← (← (← cypher.Match [(pat (← (← userNode.RelationshipTo bikeNode [c!"OWNS"]).Min 3))]).ReturningByNamed [(nm bikeNode), (nm userNode)]).Build
    let text0 ← rendered statement
    return [text0]) =
  some [c!"MATCH (u:`User`)-[:`OWNS`*3..]->(b:`Bike`) RETURN b, u"] := by decide +kernel

/-- TestRelationshipWithMaximumLength -/
example : printed (do
    let userNode ← userNodeM
    let bikeNode ← bikeNodeM
    let statement ← (← (← cypher.Match [(pat (← (← userNode.RelationshipTo bikeNode [c!"OWNS"]).Max 5))]).ReturningByNamed [(nm bikeNode), (nm userNode)]).Build
    let text0 ← rendered statement
    return [text0]) =
  some [c!"MATCH (u:`User`)-[:`OWNS`*..5]->(b:`Bike`) RETURN b, u"] := by decide +kernel

/-- TestRelationshipWithLength -/
example : printed (do
    let userNode ← userNodeM
    let bikeNode ← bikeNodeM
    let statement ← (← (← cypher.Match [(pat (← (← userNode.RelationshipTo bikeNode [c!"OWNS"]).Length 3 5))]).ReturningByNamed [(nm bikeNode), (nm userNode)]).Build
    let text0 ← rendered statement
    return [text0]) =
  some [c!"MATCH (u:`User`)-[:`OWNS`*3..5]->(b:`Bike`) RETURN b, u"] := by decide +kernel

/-- TestRelationshipWithLengthAndProperties -/
example : printed (do
    let userNode ← userNodeM
    let bikeNode ← bikeNodeM
    let statement ← (← (← cypher.Match [(pat (← (← (← userNode.RelationshipTo bikeNode [c!"OWNS"]).Length 3 5).WithProperties (ex (← cypher.MapOf [(.str c!"boughtOn"), (obj (← cypher.LiteralOf (.str c!"2019-04-16")))]))))]).ReturningByNamed [(nm bikeNode), (nm userNode)]).Build
    let text0 ← rendered statement
    return [text0]) =
  some [c!"MATCH (u:`User`)-[:`OWNS`*3..5 {boughtOn: '2019-04-16'}]->(b:`Bike`) RETURN b, u"] := by decide +kernel

/-- TestSimpleRelationshipWithReturn -/
example : printed (do
    let userNode ← userNodeM
    let bikeNode ← bikeNodeM
    let owns ← (← userNode.RelationshipTo bikeNode [c!"OWNS"]).NamedByString c!"o"
    let statement ← (← (← cypher.Match [(pat owns)]).ReturningByNamed [(nm bikeNode), (nm userNode), (nm owns)]).Build
    let text0 ← rendered statement
    return [text0]) =
  some [c!"MATCH (u:`User`)-[o:`OWNS`]->(b:`Bike`) RETURN b, u, o"] := by decide +kernel

/-- TestChainedRelations1 -/
example : printed (do
    let userNode ← userNodeM
    let bikeNode ← bikeNodeM
    let tripNode ← (← cypher.ANode c!"Trip").NamedByString c!"t"
    let statementBuilder ← cypher.Match [(pat (← (← (← (← userNode.RelationshipTo bikeNode [c!"OWNS"]).NamedByString c!"r1").RelationshipTo tripNode [c!"USED_ON"]).NamedC c!"r2"))]
    let expression ← (← (← userNode.Property c!"name").MatchesPattern c!".*aName").Get
    let statement ← (← (← statementBuilder.Where (co expression)).ReturningByNamed [(nm bikeNode), (nm userNode)]).Build
    let text0 ← rendered statement
    return [text0]) =
  some [c!"MATCH (u:`User`)-[r1:`OWNS`]->(b:`Bike`)-[r2:`USED_ON`]->(t:`Trip`) WHERE u.name =~ '.*aName' RETURN b, u"] := by decide +kernel

/-- TestChainedRelations2 -/
example : printed (do
    let userNode ← userNodeM
    let bikeNode ← bikeNodeM
    let tripNode ← (← cypher.ANode c!"Trip").NamedByString c!"t"
    let statementBuilder ← cypher.Match [(pat (← (← (← userNode.RelationshipTo bikeNode [c!"OWNS"]).RelationshipTo tripNode [c!"USED_ON"]).NamedC c!"r2"))]
    let expression ← (← (← cypher.ExpressionWrap (ex (← userNode.Property c!"name"))).MatchesPattern c!".*aName").Get
    let statement ← (← (← statementBuilder.Where (co expression)).ReturningByNamed [(nm bikeNode), (nm userNode)]).Build
    let text0 ← rendered statement
    return [text0]) =
  some [c!"MATCH (u:`User`)-[:`OWNS`]->(b:`Bike`)-[r2:`USED_ON`]->(t:`Trip`) WHERE u.name =~ '.*aName' RETURN b, u"] := by decide +kernel

/-- TestChainedRelations3 -/
example : printed (do
    let userNode ← userNodeM
    let bikeNode ← bikeNodeM
    let tripNode ← (← cypher.ANode c!"Trip").NamedByString c!"t"
    let statementBuilder ← cypher.Match [(pat (← (← (← (← (← (← (← userNode.RelationshipTo bikeNode [c!"OWNS"]).RelationshipTo tripNode [c!"USED_ON"]).NamedC c!"r2").RelationshipFrom userNode [c!"WAS_ON"]).NamedC c!"x").RelationshipBetween (← (← cypher.ANode c!"SOMETHING").NamedByString c!"something") []).NamedC c!"y"))]
    let expression ← (← (← cypher.ExpressionWrap (ex (← userNode.Property c!"name"))).MatchesPattern c!".*aName").Get
    let statement ← (← (← statementBuilder.Where (co expression)).ReturningByNamed [(nm bikeNode), (nm userNode)]).Build
    let text0 ← rendered statement
    return [text0]) =
  some [c!"MATCH (u:`User`)-[:`OWNS`]->(b:`Bike`)-[r2:`USED_ON`]->(t:`Trip`)<-[x:`WAS_ON`]-(u)-[y]-(something:`SOMETHING`) WHERE u.name =~ '.*aName' RETURN b, u"] := by decide +kernel

/-- TestChainedRelationshipWithPropertiesAndLength -/
example : printed (do
    let userNode ← userNodeM
    let bikeNode ← bikeNodeM
    let tripNode ← (← cypher.ANode c!"Trip").NamedByString c!"t"
    let statementBuilder ← cypher.Match [(pat (← (← (← (← (← (← (← (← (← (← (← (← (← userNode.RelationshipTo bikeNode [c!"OWNS"]).RelationshipTo tripNode [c!"USED_ON"]).NamedC c!"r2").Min 1).Properties (ex (← cypher.MapOf [(.str c!"when"), (obj (← cypher.LiteralOf (.str c!"2019-04-16")))]))).RelationshipFrom userNode [c!"WAS_ON"]).NamedC c!"x").Max 2).Properties (ex (← cypher.MapOf [(.str c!"whatever"), (obj (← cypher.LiteralOf (.str c!"2020-04-16")))]))).RelationshipBetween (← (← cypher.ANode c!"SOMETHING").NamedByString c!"something") []).NamedC c!"y").Length 2 3).Properties (ex (← cypher.MapOf [(.str c!"idk"), (obj (← cypher.LiteralOf (.str c!"2021-04-16")))]))))]
    let expression ← (← (← cypher.ExpressionWrap (ex (← userNode.Property c!"name"))).MatchesPattern c!".*aName").Get
    let statement ← (← (← statementBuilder.Where (co expression)).ReturningByNamed [(nm bikeNode), (nm userNode)]).Build
    let text0 ← rendered statement
    return [text0]) =
  some [c!"MATCH (u:`User`)-[:`OWNS`]->(b:`Bike`)-[r2:`USED_ON`*1.. {when: '2019-04-16'}]->(t:`Trip`)<-[x:`WAS_ON`*..2 {whatever: '2020-04-16'}]-(u)-[y*2..3 {idk: '2021-04-16'}]-(something:`SOMETHING`) WHERE u.name =~ '.*aName' RETURN b, u"] := by decide +kernel

/-- TestSizeOfRelationship -/
example : printed (do
    let statementBuilder ← cypher.Match [(pat (← cypher.AnyNodeNamed c!"a"))]
    let expression ← (← (← cypher.ExpressionWrap (ex (← cypher.AProperty c!"a" c!"name"))).IsEqualTo (ex (← cypher.LiteralOf (.str c!"Alice")))).Get
    let statement ← (← (← statementBuilder.Where (co expression)).Returning [(ex (← (← (← cypher.SizeByPattern (pat (← (← cypher.AnyNodeNamed c!"a").RelationshipTo (← cypher.AnyNode) []))).As c!"fof").Get))]).Build
    let text0 ← rendered statement
    return [text0]) =
  some [c!"MATCH (a) WHERE a.name = 'Alice' RETURN size((a)-->()) AS fof"] := by decide +kernel

/-- TestSizeOfRelationshipChain -/
example : printed (do
    let statementBuilder ← cypher.Match [(pat (← cypher.AnyNodeNamed c!"a"))]
    let expression ← (← (← cypher.ExpressionWrap (ex (← cypher.AProperty c!"a" c!"name"))).IsEqualTo (ex (← cypher.LiteralOf (.str c!"Alice")))).Get
    let statement ← (← (← statementBuilder.Where (co expression)).Returning [(ex (← (← (← cypher.SizeByPattern (pat (← (← (← cypher.AnyNodeNamed c!"a").RelationshipTo (← cypher.AnyNode) []).RelationshipTo (← cypher.AnyNode) []))).As c!"fof").Get))]).Build
    let text0 ← rendered statement
    return [text0]) =
  some [c!"MATCH (a) WHERE a.name = 'Alice' RETURN size((a)-->()-->()) AS fof"] := by decide +kernel

/-- TestSortOrderDefault -/
example : printed (do
    let userNode ← userNodeM
    let statement ← (← (← (← cypher.Match [(pat userNode)]).ReturningByNamed [(nm userNode)]).OrderBySortItem [(← cypher.SortBy (ex (← userNode.Property c!"name")))]).Build
    let text0 ← rendered statement
    return [text0]) =
  some [c!"MATCH (u:`User`) RETURN u ORDER BY u.name"] := by decide +kernel

/-- TestSortOrderAscending -/
example : printed (do
    let userNode ← userNodeM
    let statement ← (← (← (← cypher.Match [(pat userNode)]).ReturningByNamed [(nm userNode)]).OrderBySortItem [(← (← cypher.SortBy (ex (← userNode.Property c!"name"))).Ascending)]).Build
    let text0 ← rendered statement
    return [text0]) =
  some [c!"MATCH (u:`User`) RETURN u ORDER BY u.name ASC"] := by decide +kernel

/-- TestSortOrderDescending -/
example : printed (do
    let userNode ← userNodeM
    let statement ← (← (← (← cypher.Match [(pat userNode)]).ReturningByNamed [(nm userNode)]).OrderBySortItem [(← (← cypher.SortBy (ex (← userNode.Property c!"name"))).Descending)]).Build
    let text0 ← rendered statement
    return [text0]) =
  some [c!"MATCH (u:`User`) RETURN u ORDER BY u.name DESC"] := by decide +kernel

/-- TestSortOrderConcatenation -/
example : printed (do
    let userNode ← userNodeM
    let statement ← (← (← (← cypher.Match [(pat userNode)]).ReturningByNamed [(nm userNode)]).OrderBySortItem [(← (← cypher.SortBy (ex (← userNode.Property c!"name"))).Descending), (← (← cypher.SortBy (ex (← userNode.Property c!"age"))).Ascending)]).Build
    let text0 ← rendered statement
    return [text0]) =
  some [c!"MATCH (u:`User`) RETURN u ORDER BY u.name DESC, u.age ASC"] := by decide +kernel

/-- TestSortOrderDefaultExpression -/
example : printed (do
    let userNode ← userNodeM
    let statement ← (← (← (← cypher.Match [(pat userNode)]).ReturningByNamed [(nm userNode)]).OrderBy (ex (← userNode.Property c!"name"))).Build
    let text0 ← rendered statement
    return [text0]) =
  some [c!"MATCH (u:`User`) RETURN u ORDER BY u.name"] := by decide +kernel

/-- TestSortOrderAscendingExpression -/
example : printed (do
    let userNode ← userNodeM
    let statement ← (← (← (← cypher.Match [(pat userNode)]).ReturningByNamed [(nm userNode)]).OrderBySortItem [(← (← userNode.Property c!"name").Ascending)]).Build
    let text0 ← rendered statement
    return [text0]) =
  some [c!"MATCH (u:`User`) RETURN u ORDER BY u.name ASC"] := by decide +kernel

/-- TestSortOrderDescendingExpression -/
example : printed (do
    let userNode ← userNodeM
    let statement ← (← (← (← cypher.Match [(pat userNode)]).ReturningByNamed [(nm userNode)]).OrderBySortItem [(← (← userNode.Property c!"name").Descending)]).Build
    let text0 ← rendered statement
    return [text0]) =
  some [c!"MATCH (u:`User`) RETURN u ORDER BY u.name DESC"] := by decide +kernel

/-- TestSortOrderConcatenationExpression -/
example : printed (do
    let userNode ← userNodeM
    let statement ← (← (← (← (← (← (← cypher.Match [(pat userNode)]).ReturningByNamed [(nm userNode)]).OrderBy (ex (← userNode.Property c!"name"))).Descending).And (← userNode.Property c!"age")).Ascending).Build
    let text0 ← rendered statement
    return [text0]) =
  some [c!"MATCH (u:`User`) RETURN u ORDER BY u.name DESC, u.age ASC"] := by decide +kernel

/-- TestSkip -/
example : printed (do
    let userNode ← userNodeM
    let statement ← (← (← (← cypher.Match [(pat userNode)]).ReturningByNamed [(nm userNode)]).Skip 1).Build
    let text0 ← rendered statement
    return [text0]) =
  some [c!"MATCH (u:`User`) RETURN u SKIP 1"] := by decide +kernel

/-- TestLimit -/
example : printed (do
    let userNode ← userNodeM
    let statement ← (← (← (← cypher.Match [(pat userNode)]).ReturningByNamed [(nm userNode)]).Limit 1).Build
    let text0 ← rendered statement
    return [text0]) =
  some [c!"MATCH (u:`User`) RETURN u LIMIT 1"] := by decide +kernel

/-- TestSkipAndLimit -/
example : printed (do
    let userNode ← userNodeM
    let statement ← (← (← (← (← cypher.Match [(pat userNode)]).ReturningByNamed [(nm userNode)]).Skip 1).Limit 1).Build
    let text0 ← rendered statement
    return [text0]) =
  some [c!"MATCH (u:`User`) RETURN u SKIP 1 LIMIT 1"] := by decide +kernel

/-- TestDistinct -/
example : printed (do
    let userNode ← userNodeM
    let statement ← (← (← (← (← cypher.Match [(pat userNode)]).ReturningDistinctByNamed [(nm userNode)]).Skip 1).Limit 1).Build
    let text0 ← rendered statement
    return [text0]) =
  some [c!"MATCH (u:`User`) RETURN DISTINCT u SKIP 1 LIMIT 1"] := by decide +kernel

/-! ### test_cypher/cypherit/union_test.go -/

/-- TestShouldRenderUnions -/
example : printed (do
    let bikeNode ← bikeNodeM
    let statement1 ← (← (← (← cypher.Match [(pat bikeNode)]).WhereConditionContainer (← (← bikeNode.Property c!"a").IsEqualTo (ex (← cypher.LiteralOf (.str c!"A"))))).ReturningByNamed [(nm bikeNode)]).Build
    let statement2 ← (← (← (← cypher.Match [(pat bikeNode)]).WhereConditionContainer (← (← bikeNode.Property c!"b").IsEqualTo (ex (← cypher.LiteralOf (.str c!"B"))))).ReturningByNamed [(nm bikeNode)]).Build
    let statement3 ← (← (← (← cypher.Match [(pat bikeNode)]).WhereConditionContainer (← (← bikeNode.Property c!"c").IsEqualTo (ex (← cypher.LiteralOf (.str c!"C"))))).ReturningByNamed [(nm bikeNode)]).Build
    let statement4 ← cypher.Union [statement1, statement2, statement3]
    let text0 ← rendered statement4
    return [text0]) =
  some [c!"MATCH (b:`Bike`) WHERE b.a = 'A' RETURN b UNION MATCH (b) WHERE b.b = 'B' RETURN b UNION MATCH (b) WHERE b.c = 'C' RETURN b"] := by decide +kernel

/-- TestShouldRenderAllUnions -/
example : printed (do
    let bikeNode ← bikeNodeM
    let statement1 ← (← (← (← cypher.Match [(pat bikeNode)]).WhereConditionContainer (← (← bikeNode.Property c!"a").IsEqualTo (ex (← cypher.LiteralOf (.str c!"A"))))).ReturningByNamed [(nm bikeNode)]).Build
    let statement2 ← (← (← (← cypher.Match [(pat bikeNode)]).WhereConditionContainer (← (← bikeNode.Property c!"b").IsEqualTo (ex (← cypher.LiteralOf (.str c!"B"))))).ReturningByNamed [(nm bikeNode)]).Build
    let statement3 ← cypher.UnionAll [statement1, statement2]
    let text0 ← rendered statement3
    return [text0]) =
  some [c!"MATCH (b:`Bike`) WHERE b.a = 'A' RETURN b UNION ALL MATCH (b) WHERE b.b = 'B' RETURN b"] := by decide +kernel

/-- TestShouldAppendToExistingUnions -/
example : printed (do
    let bikeNode ← bikeNodeM
    let statement1 ← (← (← (← cypher.Match [(pat bikeNode)]).WhereConditionContainer (← (← bikeNode.Property c!"a").IsEqualTo (ex (← cypher.LiteralOf (.str c!"A"))))).ReturningByNamed [(nm bikeNode)]).Build
    let statement2 ← (← (← (← cypher.Match [(pat bikeNode)]).WhereConditionContainer (← (← bikeNode.Property c!"b").IsEqualTo (ex (← cypher.LiteralOf (.str c!"B"))))).ReturningByNamed [(nm bikeNode)]).Build
    let statement ← cypher.UnionAll [statement1, statement2]
    let statement3 ← (← (← (← cypher.Match [(pat bikeNode)]).WhereConditionContainer (← (← bikeNode.Property c!"c").IsEqualTo (ex (← cypher.LiteralOf (.str c!"C"))))).ReturningByNamed [(nm bikeNode)]).Build
    let statement4 ← (← (← (← cypher.Match [(pat bikeNode)]).WhereConditionContainer (← (← bikeNode.Property c!"d").IsEqualTo (ex (← cypher.LiteralOf (.str c!"D"))))).ReturningByNamed [(nm bikeNode)]).Build
    let statement ← cypher.UnionAll [statement, statement3, statement4]
    let text0 ← rendered statement
    return [text0]) =
  some [c!"MATCH (b:`Bike`) WHERE b.a = 'A' RETURN b UNION ALL MATCH (b) WHERE b.b = 'B' RETURN b UNION ALL MATCH (b) WHERE b.c = 'C' RETURN b UNION ALL MATCH (b) WHERE b.d = 'D' RETURN b"] := by decide +kernel

/-! ### test_cypher/cypherit/unwind_rendering_test.go -/

/-- TestUnwindWithoutWith -/
example : printed (do
    let rootNode ← cypher.AnyNodeNamed c!"n"
    let label ← cypher.ASymbolic c!"label"
    let builder ← (← (← (← (← (← (← cypher.Match [(pat rootNode)]).WhereConditionContainer (← (← rootNode.InternalId).IsEqualTo (ex (← cypher.LiteralOf (.int 1))))).Unwind (ex (← rootNode.Labels))).As c!"label").With [(ex label)]).Where (co (← (← (← label.In (ex (← cypher.AParam c!"fixedLabels"))).Not).Get))).Returning [(ex (← (← (← cypher.Collect (ex label)).As c!"labels").Get))]
    let text0 ← built builder
    return [text0]) =
  some [c!"MATCH (n) WHERE id(n) = 1 UNWIND labels(n) AS label WITH label WHERE NOT (label IN $fixedLabels) RETURN collect(label) AS labels"] := by decide +kernel

/-- TestShouldRenderLeadingUnwind -/
example : printed (do
    let builder ← (← (← cypher.UnwindMulti [(ex (← cypher.LiteralOf (.int 1))), (ex (← cypher.LiteralTrue)), (ex (← cypher.LiteralFalse))]).As c!"n").Returning [(ex (← cypher.ASymbolic c!"n"))]
    let text0 ← built builder
    return [text0]) =
  some [c!"UNWIND [1, true, false] AS n RETURN n"] := by decide +kernel

/-- TestShouldRenderLeadingUnwindWithUpdate -/
example : printed (do
    let bikeNode ← bikeNodeM
    let builder ← (← (← (← cypher.UnwindMulti [(ex (← cypher.LiteralOf (.int 1))), (ex (← cypher.LiteralTrue)), (ex (← cypher.LiteralFalse))]).As c!"n").Merge [(pat (← bikeNode.WithRawProperties [(.str c!"b"), (obj (← cypher.ASymbolic c!"n"))]))]).ReturningByNamed [(nm bikeNode)]
    let text0 ← built builder
    return [text0]) =
  some [c!"UNWIND [1, true, false] AS n MERGE (b:`Bike` {b: n}) RETURN b"] := by decide +kernel

/-- TestShouldRenderLeadingUnwindWithCreate -/
example : printed (do
    let bikeNode ← bikeNodeM
    let builder ← (← (← (← cypher.UnwindMulti [(ex (← cypher.LiteralOf (.int 1))), (ex (← cypher.LiteralTrue)), (ex (← cypher.LiteralFalse))]).As c!"n").Create [(pat (← bikeNode.WithRawProperties [(.str c!"b"), (obj (← cypher.ASymbolic c!"n"))]))]).ReturningByNamed [(nm bikeNode)]
    let text0 ← built builder
    return [text0]) =
  some [c!"UNWIND [1, true, false] AS n CREATE (b:`Bike` {b: n}) RETURN b"] := by decide +kernel

/-- TestShouldRenderUnwind -/
example : printed (do
    let bikeNode ← bikeNodeM
    let collected ← (← (← cypher.CollectByNamed bikeNode).As c!"collected").Get
    let builder ← (← (← (← (← (← (← cypher.Match [(pat bikeNode)]).With [(ex collected)]).Unwind (ex collected)).As c!"x").WithByString [c!"x"]).Delete [(ex (← cypher.ASymbolic c!"x"))]).ReturningByString [c!"x"]
    let text0 ← built builder
    return [text0]) =
  some [c!"MATCH (b:`Bike`) WITH collect(b) AS collected UNWIND collected AS x WITH x DELETE x RETURN x"] := by decide +kernel

/-! ### test_cypher/cypherit/with_and_order_test.go -/

/-- TestOrderOnWithShouldWork -/
example : printed (do
    let builder ← (← (← (← cypher.Match [(pat (← (← (← (← cypher.ANode c!"Movie").NamedByString c!"m").RelationshipFrom (← (← cypher.ANode c!"Person").NamedByString c!"p") [c!"ACTED_IN"]).Named c!"r"))]).With [(ex (← cypher.ASymbolic c!"m")), (ex (← cypher.ASymbolic c!"p"))]).OrderBySortItem [(← cypher.SortBy (ex (← cypher.AProperty c!"m" c!"title"))), (← cypher.SortBy (ex (← cypher.AProperty c!"p" c!"name")))]).Returning [(ex (← (← (← cypher.AProperty c!"m" c!"title").As c!"movie").Get)), (ex (← (← (← cypher.Collect (ex (← cypher.AProperty c!"p" c!"name"))).As c!"actors").Get))]
    let text0 ← built builder
    return [text0]) =
  some [c!"MATCH (m:`Movie`)<-[r:`ACTED_IN`]-(p:`Person`) WITH m, p ORDER BY m.title, p.name RETURN m.title AS movie, collect(p.name) AS actors"] := by decide +kernel

/-- TestConcatenatedOrdering -/
example : printed (do
    let builder ← (← (← (← cypher.Match [(pat (← (← (← (← cypher.ANode c!"Movie").NamedByString c!"m").RelationshipFrom (← (← cypher.ANode c!"Person").NamedByString c!"p") [c!"ACTED_IN"]).Named c!"r"))]).With [(ex (← cypher.ASymbolic c!"m")), (ex (← cypher.ASymbolic c!"p"))]).OrderBySortItem [(← (← cypher.SortBy (ex (← cypher.AProperty c!"m" c!"title"))).Ascending), (← (← cypher.SortBy (ex (← cypher.AProperty c!"p" c!"name"))).Ascending)]).Returning [(ex (← (← (← cypher.AProperty c!"m" c!"title").As c!"movie").Get)), (ex (← (← (← cypher.Collect (ex (← cypher.AProperty c!"p" c!"name"))).As c!"actors").Get))]
    let text0 ← built builder
    return [text0]) =
  some [c!"MATCH (m:`Movie`)<-[r:`ACTED_IN`]-(p:`Person`) WITH m, p ORDER BY m.title ASC, p.name ASC RETURN m.title AS movie, collect(p.name) AS actors"] := by decide +kernel

end Verif
