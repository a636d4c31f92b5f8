import Verif.Replay

/-
The tests of the package in test_cypher/cypherit/merge_clause_test.go … test_cypher/cypherit/property_rendering_test.go, translated by tools/replay.py: each `example` makes the calls of the test
in the model and compares what is printed with the text that the test expects.
-/

namespace Verif

/-! ### test_cypher/cypherit/merge_clause_test.go -/

/-- TestShouldRenderMergeWithoutReturn -/
example : printed (do
    let userNode ← userNodeM
    let bikeNode ← bikeNodeM
    let builder ← cypher.Merge [(pat userNode)]
    let text0 ← built builder
    let builder ← cypher.Merge [(pat (← (← userNode.RelationshipTo bikeNode [c!"OWNS"]).NamedByString c!"o"))]
    let text1 ← built builder
    return [text0, text1]) =
  some [c!"MERGE (u:`User`)",
    c!"MERGE (u:`User`)-[o:`OWNS`]->(b:`Bike`)"] := by decide +kernel

/-- TestShouldRenderMultipleMergeWithoutReturn -/
example : printed (do
    let userNode ← userNodeM
    let bikeNode ← bikeNodeM
    let builder ← (← cypher.Merge [(pat userNode)]).Merge [(pat bikeNode)]
    let text0 ← built builder
    let builder ← (← cypher.Merge [(pat (← (← userNode.RelationshipTo bikeNode [c!"OWNS"]).NamedByString c!"o"))]).Merge [(pat (← OtherNode))]
    let text1 ← built builder
    return [text0, text1]) =
  some [c!"MERGE (u:`User`) MERGE (b:`Bike`)",
    c!"MERGE (u:`User`)-[o:`OWNS`]->(b:`Bike`) MERGE (other:`Other`)"] := by decide +kernel

/-- TestShouldRenderMergeReturn -/
example : printed (do
    let userNode ← userNodeM
    let bikeNode ← bikeNodeM
    let builder ← (← cypher.Merge [(pat userNode)]).ReturningByNamed [(nm userNode)]
    let text0 ← built builder
    let r ← (← userNode.RelationshipTo bikeNode [c!"OWNS"]).NamedByString c!"o"
    let builder ← (← cypher.Merge [(pat r)]).ReturningByNamed [(nm userNode), (nm r)]
    let text1 ← built builder
    let builder ← (← (← (← (← cypher.Merge [(pat userNode)]).ReturningByNamed [(nm userNode)]).OrderBy (ex (← userNode.Property c!"name"))).Skip 23).Limit 42
    let text2 ← built builder
    return [text0, text1, text2]) =
  some [c!"MERGE (u:`User`) RETURN u",
    c!"MERGE (u:`User`)-[o:`OWNS`]->(b:`Bike`) RETURN u, o",
    c!"MERGE (u:`User`) RETURN u ORDER BY u.name SKIP 23 LIMIT 42"] := by decide +kernel

/-- TestShouldRenderMultipleMergesReturn -/
example : printed (do
    let userNode ← userNodeM
    let bikeNode ← bikeNodeM
    let builder ← (← (← cypher.Merge [(pat userNode)]).Merge [(pat bikeNode)]).ReturningByNamed [(nm userNode)]
    let text0 ← built builder
    let r ← (← userNode.RelationshipTo bikeNode [c!"OWNS"]).NamedByString c!"o"
    let builder ← (← (← cypher.Merge [(pat r)]).Merge [(pat (← OtherNode))]).ReturningByNamed [(nm userNode), (nm r)]
    let text1 ← built builder
    return [text0, text1]) =
  some [c!"MERGE (u:`User`) MERGE (b:`Bike`) RETURN u",
    c!"MERGE (u:`User`)-[o:`OWNS`]->(b:`Bike`) MERGE (other:`Other`) RETURN u, o"] := by decide +kernel

/-- TestShouldRenderMergeWithWith -/
example : printed (do
    let userNode ← userNodeM
    let builder ← (← (← cypher.Merge [(pat userNode)]).WithByNamed [(nm userNode)]).ReturningByNamed [(nm userNode)]
    let text0 ← built builder
    let builder ← (← (← cypher.Merge [(pat userNode)]).WithByNamed [(nm userNode)]).Set [(ex (← (← userNode.Property c!"x").To (ex (← cypher.LiteralOf (.str c!"y")))))]
    let text1 ← built builder
    return [text0, text1]) =
  some [c!"MERGE (u:`User`) WITH u RETURN u",
    c!"MERGE (u:`User`) WITH u SET u.x = 'y'"] := by decide +kernel

/-- TestMatchShouldExposeMerge -/
example : printed (do
    let userNode ← userNodeM
    let bikeNode ← bikeNodeM
    let builder ← (← cypher.Match [(pat userNode)]).Merge [(pat (← (← userNode.RelationshipTo bikeNode [c!"OWNS"]).NamedByString c!"o"))]
    let text0 ← built builder
    return [text0]) =
  some [c!"MATCH (u:`User`) MERGE (u)-[o:`OWNS`]->(b:`Bike`)"] := by decide +kernel

/-- TestWithShouldExposeMerge -/
example : printed (do
    let userNode ← userNodeM
    let bikeNode ← bikeNodeM
    let builder ← (← (← cypher.Match [(pat userNode)]).WithDistinctByNamed [(nm userNode)]).Merge [(pat (← (← userNode.RelationshipTo bikeNode [c!"OWNS"]).NamedByString c!"o"))]
    let text0 ← built builder
    return [text0]) =
  some [c!"MATCH (u:`User`) WITH DISTINCT u MERGE (u)-[o:`OWNS`]->(b:`Bike`)"] := by decide +kernel

/-- TestMixedCreateAndMerge -/
example : printed (do
    let userNode ← userNodeM
    let bikeNode ← bikeNodeM
    let tripNode ← (← cypher.ANode c!"Trip").NamedByString c!"t"
    let builder ← (← (← (← (← cypher.Create [(pat userNode)]).Merge [(pat (← (← userNode.RelationshipTo bikeNode [c!"OWNS"]).NamedByString c!"o"))]).WithDistinctByNamed [(nm bikeNode)]).Merge [(pat (← tripNode.RelationshipFrom bikeNode [c!"USED_ON"]))]).Returning [(ex (← cypher.AnAsterisk))]
    let text0 ← built builder
    return [text0]) =
  some [c!"CREATE (u:`User`) MERGE (u)-[o:`OWNS`]->(b:`Bike`) WITH DISTINCT b MERGE (t:`Trip`)<-[:`USED_ON`]-(b) RETURN *"] := by decide +kernel

/-- TestSingleCreateAction -/
example : printed (do
    let userNode ← userNodeM
    let halloWeltString ← cypher.LiteralOf (.str c!"Hallo, Welt")
    let builder ← (← (← cypher.Merge [(pat userNode)]).OnCreate).Set [(ex (← (← userNode.Property c!"p").To (ex halloWeltString)))]
    let text0 ← built builder
    let builder ← (← (← cypher.Merge [(pat userNode)]).OnCreate).Set [(ex (← userNode.Property c!"p")), (ex halloWeltString)]
    let text1 ← built builder
    return [text0, text1]) =
  some [c!"MERGE (u:`User`) ON CREATE SET u.p = 'Hallo, Welt'",
    c!"MERGE (u:`User`) ON CREATE SET u.p = 'Hallo, Welt'"] := by decide +kernel

/-- TestSingleMatchAction -/
example : printed (do
    let userNode ← userNodeM
    let halloWeltString ← cypher.LiteralOf (.str c!"Hallo, Welt")
    let builder ← (← (← cypher.Merge [(pat userNode)]).OnMatch).Set [(ex (← (← userNode.Property c!"p").To (ex halloWeltString)))]
    let text0 ← built builder
    let builder ← (← (← cypher.Merge [(pat userNode)]).OnMatch).Set [(ex (← userNode.Property c!"p")), (ex halloWeltString)]
    let text1 ← built builder
    return [text0, text1]) =
  some [c!"MERGE (u:`User`) ON MATCH SET u.p = 'Hallo, Welt'",
    c!"MERGE (u:`User`) ON MATCH SET u.p = 'Hallo, Welt'"] := by decide +kernel

/-- TestStuffThanSingleMatchAction -/
example : printed (do
    let userNode ← userNodeM
    let bikeNode ← bikeNodeM
    let builder ← (← (← (← (← (← cypher.Create [(pat bikeNode)]).Set [(ex (← (← bikeNode.Property c!"nice").To (ex (← cypher.LiteralTrue))))]).Merge [(pat userNode)]).OnMatch).Set [(ex (← (← userNode.Property c!"happy").To (ex (← cypher.LiteralTrue))))]).Create [(pat (← userNode.RelationshipTo bikeNode [c!"OWNS"]))]
    let text0 ← built builder
    return [text0]) =
  some [c!"CREATE (b:`Bike`) SET b.nice = true MERGE (u:`User`) ON MATCH SET u.happy = true CREATE (u)-[:`OWNS`]->(b)"] := by decide +kernel

/-- TestSingleActionMultipleProperties -/
example : printed (do
    let userNode ← userNodeM
    let builder ← (← (← cypher.Merge [(pat userNode)]).OnMatch).Set [(ex (← (← userNode.Property c!"p1").To (ex (← cypher.LiteralOf (.str c!"v1"))))), (ex (← (← userNode.Property c!"p2").To (ex (← cypher.LiteralOf (.str c!"v2")))))]
    let text0 ← built builder
    let builder ← (← (← cypher.Merge [(pat userNode)]).OnCreate).Set [(ex (← (← userNode.Property c!"p1").To (ex (← cypher.LiteralOf (.str c!"v1"))))), (ex (← (← userNode.Property c!"p2").To (ex (← cypher.LiteralOf (.str c!"v2")))))]
    let text1 ← built builder
    return [text0, text1]) =
  some [c!"MERGE (u:`User`) ON MATCH SET u.p1 = 'v1', u.p2 = 'v2'",
    c!"MERGE (u:`User`) ON CREATE SET u.p1 = 'v1', u.p2 = 'v2'"] := by decide +kernel

/-- TestMultipleActionsMultipleProperties -/
example : printed (do
    let userNode ← userNodeM
    let builder ← (← (← (← (← cypher.Merge [(pat userNode)]).OnMatch).Set [(ex (← (← userNode.Property c!"p1").To (ex (← cypher.LiteralOf (.str c!"v1"))))), (ex (← (← userNode.Property c!"p2").To (ex (← cypher.LiteralOf (.str c!"v2")))))]).OnCreate).Set [(ex (← (← userNode.Property c!"p3").To (ex (← cypher.LiteralOf (.str c!"v3"))))), (ex (← (← userNode.Property c!"p4").To (ex (← cypher.LiteralOf (.str c!"v4")))))]
    let text0 ← built builder
    return [text0]) =
  some [c!"MERGE (u:`User`) ON MATCH SET u.p1 = 'v1', u.p2 = 'v2' ON CREATE SET u.p3 = 'v3', u.p4 = 'v4'"] := by decide +kernel

/-- TestSingleCreateThanMatchAction -/
example : printed (do
    let userNode ← userNodeM
    let helloWorldString ← cypher.LiteralOf (.str c!"Hello, World")
    let halloWeltString ← cypher.LiteralOf (.str c!"Hallo, Welt")
    let builder ← (← (← (← (← cypher.Merge [(pat userNode)]).OnCreate).Set [(ex (← (← userNode.Property c!"p").To (ex helloWorldString)))]).OnMatch).Set [(ex (← (← userNode.Property c!"p").To (ex halloWeltString)))]
    let text0 ← built builder
    return [text0]) =
  some [c!"MERGE (u:`User`) ON CREATE SET u.p = 'Hello, World' ON MATCH SET u.p = 'Hallo, Welt'"] := by decide +kernel

/-- TestSingleMatchThanCreateAction -/
example : printed (do
    let userNode ← userNodeM
    let helloWorldString ← cypher.LiteralOf (.str c!"Hello, World")
    let halloWeltString ← cypher.LiteralOf (.str c!"Hallo, Welt")
    let builder ← (← (← (← (← cypher.Merge [(pat userNode)]).OnMatch).Set [(ex (← (← userNode.Property c!"p").To (ex halloWeltString)))]).OnCreate).Set [(ex (← (← userNode.Property c!"p").To (ex helloWorldString)))]
    let text0 ← built builder
    return [text0]) =
  some [c!"MERGE (u:`User`) ON MATCH SET u.p = 'Hallo, Welt' ON CREATE SET u.p = 'Hello, World'"] := by decide +kernel

/-- TestMultipleMatchesAndCreates -/
example : printed (do
    let userNode ← userNodeM
    let builder ← (← (← (← (← (← (← (← (← cypher.Merge [(pat userNode)]).OnMatch).Set [(ex (← (← userNode.Property c!"p1").To (ex (← cypher.LiteralOf (.str c!"v1")))))]).OnCreate).Set [(ex (← (← userNode.Property c!"p2").To (ex (← cypher.LiteralOf (.str c!"v2")))))]).OnCreate).Set [(ex (← (← userNode.Property c!"p3").To (ex (← cypher.LiteralOf (.str c!"v3")))))]).OnMatch).Set [(ex (← (← userNode.Property c!"p4").To (ex (← cypher.LiteralOf (.str c!"v4")))))]
    let text0 ← built builder
    return [text0]) =
  some [c!"MERGE (u:`User`) ON MATCH SET u.p1 = 'v1' ON CREATE SET u.p2 = 'v2' ON CREATE SET u.p3 = 'v3' ON MATCH SET u.p4 = 'v4'"] := by decide +kernel

/-- TestActionThanSet -/
example : printed (do
    let userNode ← userNodeM
    let builder ← (← (← (← (← cypher.Merge [(pat userNode)]).OnMatch).Set [(ex (← (← userNode.Property c!"p1").To (ex (← cypher.LiteralOf (.str c!"v1")))))]).Set [(ex (← (← userNode.Property c!"p2").To (ex (← cypher.LiteralOf (.str c!"v2")))))]).ReturningByNamed [(nm userNode)]
    let text0 ← built builder
    return [text0]) =
  some [c!"MERGE (u:`User`) ON MATCH SET u.p1 = 'v1' SET u.p2 = 'v2' RETURN u"] := by decide +kernel

/-- TestActionThanContinue -/
example : printed (do
    let userNode ← userNodeM
    let builder ← (← (← (← (← cypher.Merge [(pat userNode)]).OnMatch).Set [(ex (← (← userNode.Property c!"p1").To (ex (← cypher.LiteralOf (.str c!"v1")))))]).WithByNamed [(nm userNode)]).ReturningByNamed [(nm userNode)]
    let text0 ← built builder
    return [text0]) =
  some [c!"MERGE (u:`User`) ON MATCH SET u.p1 = 'v1' WITH u RETURN u"] := by decide +kernel

/-! ### test_cypher/cypherit/multiple_labels_test.go -/

/-- TestMatchWithMultipleLabels -/
example : printed (do
    let node ← (← cypher.NewNodeWithLabels c!"a" [c!"b", c!"c"]).NamedByString c!"n"
    let builder ← (← cypher.Match [(pat node)]).ReturningByNamed [(nm node)]
    let text0 ← built builder
    return [text0]) =
  some [c!"MATCH (n:`a`:`b`:`c`) RETURN n"] := by decide +kernel

/-- TestCreateWithMultipleLabels -/
example : printed (do
    let node ← (← cypher.NewNodeWithLabels c!"a" [c!"b", c!"c"]).NamedByString c!"n"
    let builder ← cypher.Create [(pat node)]
    let text0 ← built builder
    return [text0]) =
  some [c!"CREATE (n:`a`:`b`:`c`)"] := by decide +kernel

/-! ### test_cypher/cypherit/multiple_matches_test.go -/

/-- TestSimple -/
example : printed (do
    let userNode ← userNodeM
    let bikeNode ← bikeNodeM
    let statement ← (← (← (← cypher.Match [(pat bikeNode)]).Match [(pat userNode), (pat (← (← cypher.ANode c!"U").NamedByString c!"o"))]).ReturningByNamed [(nm bikeNode)]).Build
    let text0 ← rendered statement
    return [text0]) =
  some [c!"MATCH (b:`Bike`) MATCH (u:`User`), (o:`U`) RETURN b"] := by decide +kernel

/-- TestSimpleWhere -/
example : printed (do
    let userNode ← userNodeM
    let bikeNode ← bikeNodeM
    let statement ← (← (← (← (← cypher.Match [(pat bikeNode)]).Match [(pat userNode), (pat (← (← cypher.ANode c!"U").NamedByString c!"o"))]).Where (co (← (← (← userNode.Property c!"a").IsNull).Get))).ReturningByNamed [(nm bikeNode)]).Build
    let text0 ← rendered statement
    return [text0]) =
  some [c!"MATCH (b:`Bike`) MATCH (u:`User`), (o:`U`) WHERE u.a IS NULL RETURN b"] := by decide +kernel

/-- TestMultiWhere -/
example : printed (do
    let userNode ← userNodeM
    let bikeNode ← bikeNodeM
    let statement ← (← (← (← (← (← cypher.Match [(pat bikeNode)]).Where (co (← (← (← bikeNode.Property c!"a").IsNotNull).Get))).Match [(pat userNode), (pat (← (← cypher.ANode c!"U").NamedByString c!"o"))]).Where (co (← (← (← userNode.Property c!"a").IsNull).Get))).ReturningByNamed [(nm bikeNode)]).Build
    let text0 ← rendered statement
    return [text0]) =
  some [c!"MATCH (b:`Bike`) WHERE b.a IS NOT NULL MATCH (u:`User`), (o:`U`) WHERE u.a IS NULL RETURN b"] := by decide +kernel

/-- TestMultiWhereMultiConditions -/
example : printed (do
    let userNode ← userNodeM
    let bikeNode ← bikeNodeM
    let statement ← (← (← (← (← (← (← cypher.Match [(pat bikeNode)]).Where (co (← (← (← bikeNode.Property c!"a").IsNotNull).Get))).And (← (← (← bikeNode.Property c!"b").IsNull).Get)).Match [(pat userNode), (pat (← (← cypher.ANode c!"U").NamedByString c!"o"))]).Where (co (← (← (← (← userNode.Property c!"a").IsNull).Or (co (← (← (← userNode.InternalId).IsEqualTo (ex (← cypher.LiteralOf (.int 4711)))).Get))).Get))).ReturningByNamed [(nm bikeNode)]).Build
    let text0 ← rendered statement
    return [text0]) =
  some [c!"MATCH (b:`Bike`) WHERE (b.a IS NOT NULL AND b.b IS NULL) MATCH (u:`User`), (o:`U`) WHERE (u.a IS NULL OR id(u) = 4711) RETURN b"] := by decide +kernel

/-- TestOptionalMatch -/
example : printed (do
    let userNode ← userNodeM
    let bikeNode ← bikeNodeM
    let statement ← (← (← (← (← cypher.AnOptionalMatch [(pat bikeNode)]).Match [(pat userNode), (pat (← (← cypher.ANode c!"U").NamedByString c!"o"))]).Where (co (← (← (← userNode.Property c!"a").IsNull).Get))).ReturningByNamed [(nm bikeNode)]).Build
    let text0 ← rendered statement
    return [text0]) =
  some [c!"OPTIONAL MATCH (b:`Bike`) MATCH (u:`User`), (o:`U`) WHERE u.a IS NULL RETURN b"] := by decide +kernel

/-- TestUsingSameWithStepWithoutReassign -/
example : printed (do
    let userNode ← userNodeM
    let bikeNode ← bikeNodeM
    let statement ← (← (← (← (← (← cypher.Match [(pat bikeNode)]).WithByNamed [(nm bikeNode)]).OptionalMatch [(pat userNode)]).OptionalMatch [(pat (← (← cypher.ANode c!"Trip").NamedByString c!"trip"))]).Returning [(ex (← cypher.AnAsterisk))]).Build
    let text0 ← rendered statement
    return [text0]) =
  some [c!"MATCH (b:`Bike`) WITH b OPTIONAL MATCH (u:`User`) OPTIONAL MATCH (trip:`Trip`) RETURN *"] := by decide +kernel

/-- TestUsingSameWithStepWithoutReassignThenUpdate -/
example : printed (do
    let userNode ← userNodeM
    let bikeNode ← bikeNodeM
    let statement ← (← (← (← (← (← (← cypher.Match [(pat bikeNode)]).WithByNamed [(nm bikeNode)]).OptionalMatch [(pat userNode)]).OptionalMatch [(pat (← (← cypher.ANode c!"Trip").NamedByString c!"trip"))]).DeleteByString [c!"u"]).Returning [(ex (← cypher.AnAsterisk))]).Build
    let text0 ← rendered statement
    return [text0]) =
  some [c!"MATCH (b:`Bike`) WITH b OPTIONAL MATCH (u:`User`) OPTIONAL MATCH (trip:`Trip`) DELETE u RETURN *"] := by decide +kernel

/-- TestQueryPartsShouldBeExtractableInQueries -/
example : printed (do
    let statement ← (← (← (← (← (← (← cypher.Match [(pat (← (← cypher.ANode c!"S1").NamedByString c!"n"))]).Where (co (← (← (← cypher.AProperty c!"n" c!"a").IsEqualTo (ex (← cypher.LiteralOf (.str c!"A")))).Get))).WithByString [c!"n"]).Match [(pat (← (← cypher.AnyNodeNamed c!"n").RelationshipTo (← (← cypher.ANode c!"S2").NamedByString c!"m") [c!"SOMEHOW_RELATED"]))]).WithByString [c!"n", c!"m"]).ReturningByString [c!"n", c!"m"]).Build
    let text0 ← rendered statement
    return [text0]) =
  some [c!"MATCH (n:`S1`) WHERE n.a = 'A' WITH n MATCH (n)-[:`SOMEHOW_RELATED`]->(m:`S2`) WITH n, m RETURN n, m"] := by decide +kernel

/-- TestOptionalNext -/
example : printed (do
    let userNode ← userNodeM
    let bikeNode ← bikeNodeM
    let statement ← (← (← (← (← cypher.Match [(pat bikeNode)]).OptionalMatch [(pat userNode), (pat (← (← cypher.ANode c!"U").NamedByString c!"o"))]).Where (co (← (← (← userNode.Property c!"a").IsNull).Get))).ReturningByNamed [(nm bikeNode)]).Build
    let text0 ← rendered statement
    return [text0]) =
  some [c!"MATCH (b:`Bike`) OPTIONAL MATCH (u:`User`), (o:`U`) WHERE u.a IS NULL RETURN b"] := by decide +kernel

/-- TestOptionalMatchThenDelete -/
example : printed (do
    let userNode ← userNodeM
    let bikeNode ← bikeNodeM
    let buildableStatement ← (← (← cypher.Match [(pat bikeNode)]).OptionalMatch [(pat userNode), (pat (← (← cypher.ANode c!"U").NamedByString c!"o"))]).DeleteByNamed [(nm userNode), (nm bikeNode)]
    let text0 ← built buildableStatement
    return [text0]) =
  some [c!"MATCH (b:`Bike`) OPTIONAL MATCH (u:`User`), (o:`U`) DELETE u, b"] := by decide +kernel

/-! ### test_cypher/cypherit/named_path_test.go -/

/-- TestDoc3148 -/
example : printed (do
    let namePath ← (← cypher.APath c!"p").DefinedBy (← (← (← cypher.AnyNodeNamed c!"michael").WithRawProperties [(.str c!"name"), (obj (← cypher.LiteralOf (.str c!"Michael Douglas")))]).RelationshipTo (← cypher.AnyNode) [])
    let builder ← (← cypher.Match [(pat namePath)]).ReturningByNamed [(nm namePath)]
    let text0 ← built builder
    return [text0]) =
  some [c!"MATCH p = (michael {name: 'Michael Douglas'})-->() RETURN p"] := by decide +kernel

/-- TestShouldWorkInListComprehensions -/
example : printed (do
    let namePath ← (← cypher.APath c!"p").DefinedBy (← (← (← cypher.AnyNodeNamed c!"n").RelationshipTo (← cypher.AnyNode) [c!"LIKES", c!"OWNS"]).Unbounded)
    let builder ← cypher.CypherReturning [(ex (← (← cypher.ListBasedOnNamed namePath).ReturningByNamed [(nm namePath)]))]
    let text0 ← built builder
    return [text0]) =
  some [c!"RETURN [p = (n)-[:`LIKES`|`OWNS`*]->() | p]"] := by decide +kernel

/-! ### test_cypher/cypherit/operations_and_comparisions_test.go -/

/-- TestShouldRenderOperations -/
example : printed (do
    let n ← cypher.AnyNodeNamed c!"n"
    let builder ← (← cypher.Match [(pat n)]).Returning [(ex (← (← (← cypher.LiteralOf (.int 1)).Add (ex (← cypher.LiteralOf (.int 2)))).Get))]
    let text0 ← built builder
    return [text0]) =
  some [c!"MATCH (n) RETURN (1 + 2)"] := by decide +kernel

/-- TestShouldRenderComparison -/
example : printed (do
    let n ← cypher.AnyNodeNamed c!"n"
    let builder ← (← cypher.Match [(pat n)]).Returning [(ex (← (← (← cypher.LiteralOf (.int 1)).Gt (ex (← cypher.LiteralOf (.int 2)))).Get))]
    let text0 ← built builder
    let builder ← (← cypher.Match [(pat n)]).Returning [(ex (← (← (← (← cypher.LiteralOf (.int 1)).Gt (ex (← cypher.LiteralOf (.int 2)))).IsTrue).Get))]
    let text1 ← built builder
    let builder ← (← cypher.Match [(pat n)]).Returning [(ex (← (← (← (← (← cypher.LiteralOf (.int 1)).Gt (ex (← cypher.LiteralOf (.int 2)))).IsTrue).IsFalse).Get))]
    let text2 ← built builder
    return [text0, text1, text2]) =
  some [c!"MATCH (n) RETURN 1 > 2",
    c!"MATCH (n) RETURN (1 > 2) = true",
    c!"MATCH (n) RETURN ((1 > 2) = true) = false"] := by decide +kernel

/-! ### test_cypher/cypherit/path_pattern_condition_test.go -/

/-- TestDoc3651And -/
example : printed (do
    let timothy ← (← (← cypher.ANode c!"Person").NamedByString c!"timothy").WithRawProperties [(.str c!"name"), (obj (← cypher.LiteralOf (.str c!"Timothy")))]
    let other ← (← cypher.ANode c!"Person").NamedByString c!"other"
    let statement ← (← (← (← (← cypher.Match [(pat timothy), (pat other)]).WhereConditionContainer (← (← other.Property c!"name").In (ex (← cypher.ListOf [(ex (← cypher.LiteralOf (.str c!"Andy"))), (ex (← cypher.LiteralOf (.str c!"Peter")))])))).AndPattern (pat (← timothy.RelationshipFrom other []))).Returning [(ex (← other.Property c!"name")), (ex (← other.Property c!"age"))]).Build
    let text0 ← rendered statement
    let statement ← (← (← (← cypher.Match [(pat timothy), (pat other)]).WhereConditionContainer (← (← (← other.Property c!"name").In (ex (← cypher.ListOf [(ex (← cypher.LiteralOf (.str c!"Andy"))), (ex (← cypher.LiteralOf (.str c!"Peter")))]))).AndPattern (pat (← timothy.RelationshipFrom other [])))).Returning [(ex (← other.Property c!"name")), (ex (← other.Property c!"age"))]).Build
    let text1 ← rendered statement
    return [text0, text1]) =
  some [c!"MATCH (timothy:`Person` {name: 'Timothy'}), (other:`Person`) WHERE (other.name IN ['Andy', 'Peter'] AND (timothy)<--(other)) RETURN other.name, other.age",
    c!"MATCH (timothy:`Person` {name: 'Timothy'}), (other:`Person`) WHERE (other.name IN ['Andy', 'Peter'] AND (timothy)<--(other)) RETURN other.name, other.age"] := by decide +kernel

/-- TestDoc3651Or -/
example : printed (do
    let timothy ← (← (← cypher.ANode c!"Person").NamedByString c!"timothy").WithRawProperties [(.str c!"name"), (obj (← cypher.LiteralOf (.str c!"Timothy")))]
    let other ← (← cypher.ANode c!"Person").NamedByString c!"other"
    let statement ← (← (← (← (← cypher.Match [(pat timothy), (pat other)]).WhereConditionContainer (← (← other.Property c!"name").In (ex (← cypher.ListOf [(ex (← cypher.LiteralOf (.str c!"Andy"))), (ex (← cypher.LiteralOf (.str c!"Peter")))])))).OrPattern (pat (← timothy.RelationshipFrom other []))).Returning [(ex (← other.Property c!"name")), (ex (← other.Property c!"age"))]).Build
    let text0 ← rendered statement
    let statement ← (← (← (← cypher.Match [(pat timothy), (pat other)]).WhereConditionContainer (← (← (← other.Property c!"name").In (ex (← cypher.ListOf [(ex (← cypher.LiteralOf (.str c!"Andy"))), (ex (← cypher.LiteralOf (.str c!"Peter")))]))).OrPattern (pat (← timothy.RelationshipFrom other [])))).Returning [(ex (← other.Property c!"name")), (ex (← other.Property c!"age"))]).Build
    let text1 ← rendered statement
    return [text0, text1]) =
  some [c!"MATCH (timothy:`Person` {name: 'Timothy'}), (other:`Person`) WHERE (other.name IN ['Andy', 'Peter'] OR (timothy)<--(other)) RETURN other.name, other.age",
    c!"MATCH (timothy:`Person` {name: 'Timothy'}), (other:`Person`) WHERE (other.name IN ['Andy', 'Peter'] OR (timothy)<--(other)) RETURN other.name, other.age"] := by decide +kernel

/-- TestDoc3651Xor -/
example : printed (do
    let timothy ← (← (← cypher.ANode c!"Person").NamedByString c!"timothy").WithRawProperties [(.str c!"name"), (obj (← cypher.LiteralOf (.str c!"Timothy")))]
    let other ← (← cypher.ANode c!"Person").NamedByString c!"other"
    let statement ← (← (← (← cypher.Match [(pat timothy), (pat other)]).WhereConditionContainer (← (← (← other.Property c!"name").In (ex (← cypher.ListOf [(ex (← cypher.LiteralOf (.str c!"Andy"))), (ex (← cypher.LiteralOf (.str c!"Peter")))]))).XorPattern (pat (← timothy.RelationshipFrom other [])))).Returning [(ex (← other.Property c!"name")), (ex (← other.Property c!"age"))]).Build
    let text0 ← rendered statement
    return [text0]) =
  some [c!"MATCH (timothy:`Person` {name: 'Timothy'}), (other:`Person`) WHERE (other.name IN ['Andy', 'Peter'] XOR (timothy)<--(other)) RETURN other.name, other.age"] := by decide +kernel

/-- TestDoc3652 -/
example : printed (do
    let person ← (← cypher.ANode c!"Person").NamedByString c!"person"
    let peter ← (← (← cypher.ANode c!"Person").NamedByString c!"peter").WithRawProperties [(.str c!"name"), (obj (← cypher.LiteralOf (.str c!"Peter")))]
    let statement ← (← (← (← cypher.Match [(pat person), (pat peter)]).Where (co (← cypher.ConditionsNotByPattern (pat (← person.RelationshipTo peter []))))).Returning [(ex (← person.Property c!"name")), (ex (← person.Property c!"age"))]).Build
    let text0 ← rendered statement
    return [text0]) =
  some [c!"MATCH (person:`Person`), (peter:`Person` {name: 'Peter'}) WHERE NOT (person)-->(peter) RETURN person.name, person.age"] := by decide +kernel

/-- TestDoc3653 -/
example : printed (do
    let person ← (← cypher.ANode c!"Person").NamedByString c!"n"
    let statement ← (← (← (← cypher.Match [(pat person)]).WherePattern (pat (← person.RelationshipBetween (← (← cypher.AnyNode).WithRawProperties [(.str c!"name"), (obj (← cypher.LiteralOf (.str c!"Timothy")))]) [c!"KNOWS"]))).Returning [(ex (← person.Property c!"name")), (ex (← person.Property c!"age"))]).Build
    let text0 ← rendered statement
    return [text0]) =
  some [c!"MATCH (n:`Person`) WHERE (n)-[:`KNOWS`]-( {name: 'Timothy'}) RETURN n.name, n.age"] := by decide +kernel

/-- TestGh113 -/
example : printed (do
    let foo ← (← cypher.ANode c!"Foo").NamedByString c!"foo"
    let bar ← (← cypher.ANode c!"Bar").NamedByString c!"bar"
    let fooBar ← (← foo.RelationshipTo bar [c!"FOOBAR"]).NamedByString c!"rel"
    let pc ← (← (← cypher.ListBasedOn (pat fooBar)).WherePattern (pat (← bar.RelationshipTo (← (← cypher.ANode c!"ZZZ").NamedByString c!"zzz") [c!"HAS"]))).ReturningByNamed [(nm fooBar), (nm bar)]
    let statement ← (← (← cypher.Match [(pat foo)]).Returning [(ex (← foo.GetSymbolicName)), (ex pc)]).Build
    let text0 ← rendered statement
    return [text0]) =
  some [c!"MATCH (foo:`Foo`) RETURN foo, [(foo)-[rel:`FOOBAR`]->(bar:`Bar`) WHERE (bar)-[:`HAS`]->(zzz:`ZZZ`) | [rel, bar]]"] := by decide +kernel

/-- TestDoc3654 -/
example : printed (do
    let person ← (← cypher.ANode c!"Person").NamedByString c!"n"
    let pathPattern ← (← person.RelationshipTo (← cypher.AnyNode) []).NamedByString c!"r"
    let statement ← (← (← (← (← cypher.Match [(pat pathPattern)]).WhereConditionContainer (← (← person.Property c!"name").IsEqualTo (ex (← cypher.LiteralOf (.str c!"Andy"))))).And (← (← (← cypher.FunctionType pathPattern).MatchesPattern c!"K.*").Get)).Returning [(ex (← cypher.FunctionType pathPattern)), (ex (← pathPattern.Property c!"since"))]).Build
    let text0 ← rendered statement
    return [text0]) =
  some [c!"MATCH (n:`Person`)-[r]->() WHERE (n.name = 'Andy' AND type(r) =~ 'K.*') RETURN type(r), r.since"] := by decide +kernel

/-- TestAfterWith -/
example : printed (do
    let timothy ← (← (← cypher.ANode c!"Person").NamedByString c!"timothy").WithRawProperties [(.str c!"name"), (obj (← cypher.LiteralOf (.str c!"Timothy")))]
    let other ← (← cypher.ANode c!"Person").NamedByString c!"other"
    let statement ← (← (← (← (← (← cypher.Match [(pat timothy), (pat other)]).WithByNamed [(nm timothy), (nm other)]).Where (co (← (← (← other.Property c!"name").In (ex (← cypher.ListOf [(ex (← cypher.LiteralOf (.str c!"Andy"))), (ex (← cypher.LiteralOf (.str c!"Peter")))]))).Get))).AndPattern (pat (← timothy.RelationshipFrom other []))).Returning [(ex (← other.Property c!"name")), (ex (← other.Property c!"age"))]).Build
    let text0 ← rendered statement
    let statement ← (← (← (← (← cypher.Match [(pat timothy), (pat other)]).WithByNamed [(nm timothy), (nm other)]).Where (co (← (← (← (← other.Property c!"name").In (ex (← cypher.ListOf [(ex (← cypher.LiteralOf (.str c!"Andy"))), (ex (← cypher.LiteralOf (.str c!"Peter")))]))).AndPattern (pat (← timothy.RelationshipFrom other []))).Get))).Returning [(ex (← other.Property c!"name")), (ex (← other.Property c!"age"))]).Build
    let text1 ← rendered statement
    return [text0, text1]) =
  some [c!"MATCH (timothy:`Person` {name: 'Timothy'}), (other:`Person`) WITH timothy, other WHERE (other.name IN ['Andy', 'Peter'] AND (timothy)<--(other)) RETURN other.name, other.age",
    c!"MATCH (timothy:`Person` {name: 'Timothy'}), (other:`Person`) WITH timothy, other WHERE (other.name IN ['Andy', 'Peter'] AND (timothy)<--(other)) RETURN other.name, other.age"] := by decide +kernel

/-- TestInPatternComprehensions -/
example : printed (do
    let a ← (← (← cypher.ANode c!"Person").WithRawProperties [(.str c!"name"), (obj (← cypher.LiteralOf (.str c!"Keanu Reeves")))]).NamedByString c!"a"
    let b ← cypher.AnyNodeNamed c!"b"
    let statement ← (← (← cypher.Match [(pat a)]).Returning [(ex (← (← (← (← (← cypher.ListBasedOn (pat (← a.RelationshipBetween b []))).Where (co (← (← (← b.HasLabels [c!"Movie"]).And (← (← (← b.Property c!"released").IsNotNull).Get)).Get))).Returning [(ex (← b.Property c!"released"))]).As c!"years").Get))]).Build
    let text0 ← rendered statement
    let statement ← (← (← cypher.Match [(pat a)]).Returning [(ex (← (← (← (← (← cypher.ListBasedOn (pat (← a.RelationshipBetween b []))).Where (co (← (← (← (← (← b.HasLabels [c!"Movie"]).And (← (← (← b.Property c!"released").IsNotNull).Get)).Or (co (← (← (← b.Property c!"title").IsEqualTo (ex (← cypher.LiteralOf (.str c!"The Matrix")))).Get))).Or (co (← (← (← b.Property c!"title").IsEqualTo (ex (← cypher.LiteralOf (.str c!"The Matrix 2")))).Get))).Get))).Returning [(ex (← b.Property c!"released"))]).As c!"years").Get))]).Build
    let text1 ← rendered statement
    let statement ← (← (← cypher.Match [(pat a)]).Returning [(ex (← (← (← (← (← (← (← (← cypher.ListBasedOn (pat (← a.RelationshipBetween b []))).Where (co (← b.HasLabels [c!"Movie"]))).And (← (← (← b.Property c!"released").IsNotNull).Get)).Or (co (← (← (← b.Property c!"title").IsEqualTo (ex (← cypher.LiteralOf (.str c!"The Matrix")))).Get))).Or (co (← (← (← b.Property c!"title").IsEqualTo (ex (← cypher.LiteralOf (.str c!"The Matrix 2")))).Get))).Returning [(ex (← b.Property c!"released"))]).As c!"years").Get))]).Build
    let text2 ← rendered statement
    let statement ← (← (← cypher.Match [(pat a)]).Returning [(ex (← (← (← (← (← cypher.ListBasedOn (pat (← a.RelationshipBetween b []))).Where (co (← b.HasLabels [c!"Movie"]))).Returning [(ex (← b.Property c!"released"))]).As c!"years").Get))]).Build
    let text3 ← rendered statement
    return [text0, text1, text2, text3]) =
  some [c!"MATCH (a:`Person` {name: 'Keanu Reeves'}) RETURN [(a)--(b) WHERE (b:`Movie` AND b.released IS NOT NULL) | b.released] AS years",
    c!"MATCH (a:`Person` {name: 'Keanu Reeves'}) RETURN [(a)--(b) WHERE ((b:`Movie` AND b.released IS NOT NULL) OR b.title = 'The Matrix' OR b.title = 'The Matrix 2') | b.released] AS years",
    c!"MATCH (a:`Person` {name: 'Keanu Reeves'}) RETURN [(a)--(b) WHERE ((b:`Movie` AND b.released IS NOT NULL) OR b.title = 'The Matrix' OR b.title = 'The Matrix 2') | b.released] AS years",
    c!"MATCH (a:`Person` {name: 'Keanu Reeves'}) RETURN [(a)--(b) WHERE b:`Movie` | b.released] AS years"] := by decide +kernel

/-! ### test_cypher/cypherit/pattern_comprehension_test.go -/

/-- TestPatternComprehensionsSimple -/
example : printed (do
    let a ← (← (← cypher.ANode c!"Person").WithRawProperties [(.str c!"name"), (obj (← cypher.LiteralOf (.str c!"Keanu Reeves")))]).NamedByString c!"a"
    let b ← cypher.AnyNodeNamed c!"b"
    let builder ← (← cypher.Match [(pat a)]).Returning [(ex (← (← (← (← cypher.ListBasedOn (pat (← a.RelationshipBetween b []))).Returning [(ex (← b.Property c!"released"))]).As c!"years").Get))]
    let text0 ← built builder
    return [text0]) =
  some [c!"MATCH (a:`Person` {name: 'Keanu Reeves'}) RETURN [(a)--(b) | b.released] AS years"] := by decide +kernel

/-- TestPatternComprehensionsSimpleWithWhere -/
example : printed (do
    let a ← (← (← cypher.ANode c!"Person").WithRawProperties [(.str c!"name"), (obj (← cypher.LiteralOf (.str c!"Keanu Reeves")))]).NamedByString c!"a"
    let b ← cypher.AnyNodeNamed c!"b"
    let builder ← (← cypher.Match [(pat a)]).Returning [(ex (← (← (← (← (← cypher.ListBasedOn (pat (← a.RelationshipBetween b []))).Where (co (← b.HasLabels [c!"Movie"]))).Returning [(ex (← b.Property c!"released"))]).As c!"years").Get))]
    let text0 ← built builder
    return [text0]) =
  some [c!"MATCH (a:`Person` {name: 'Keanu Reeves'}) RETURN [(a)--(b) WHERE b:`Movie` | b.released] AS years"] := by decide +kernel

/-- TestPatternComprehensionsNested -/
example : printed (do
    let n ← (← cypher.ANode c!"Person").NamedByString c!"n"
    let o1 ← (← cypher.ANode c!"Organisation").NamedByString c!"o1"
    let l1 ← (← cypher.ANode c!"Location").NamedByString c!"l1"
    let p2 ← (← cypher.ANode c!"Person").NamedByString c!"p2"
    let r_f1 ← (← n.RelationshipTo o1 [c!"FOUNDED"]).NamedByString c!"r_f1"
    let r_e1 ← (← n.RelationshipTo o1 [c!"EMPLOYED_BY"]).NamedByString c!"r_e1"
    let r_l1 ← (← n.RelationshipTo l1 [c!"LIVES_AT"]).NamedByString c!"r_l1"
    let r_l2 ← (← l1.RelationshipFrom p2 [c!"LIVES_AT"]).NamedByString c!"r_l2"
    let builder ← (← cypher.Match [(pat n)]).Returning [(ex (← n.GetRequiredSymbolicName)), (ex (← cypher.ListOf [(ex (← (← cypher.ListBasedOn (pat r_f1)).ReturningByNamed [(nm r_f1), (nm o1)])), (ex (← (← cypher.ListBasedOn (pat r_e1)).ReturningByNamed [(nm r_e1), (nm o1)])), (ex (← (← cypher.ListBasedOn (pat r_l1)).Returning [(ex (← r_l1.GetRequiredSymbolicName)), (ex (← l1.GetRequiredSymbolicName)), (ex (← cypher.ListOf [(ex (← (← cypher.ListBasedOn (pat r_l2)).ReturningByNamed [(nm r_l2), (nm p2)]))]))]))]))]
    let text0 ← built builder
    return [text0]) =
  some [c!"MATCH (n:`Person`) RETURN n, [[(n)-[r_f1:`FOUNDED`]->(o1:`Organisation`) | [r_f1, o1]], [(n)-[r_e1:`EMPLOYED_BY`]->(o1) | [r_e1, o1]], [(n)-[r_l1:`LIVES_AT`]->(l1:`Location`) | [r_l1, l1, [[(l1)<-[r_l2:`LIVES_AT`]-(p2:`Person`) | [r_l2, p2]]]]]]"] := by decide +kernel

/-! ### test_cypher/cypherit/predicate_test.go -/

/-- TestAllShouldWork -/
example : printed (do
    let p ← (← cypher.APath c!"p").DefinedBy (← (← (← (← cypher.AnyNodeNamed c!"a").RelationshipTo (← cypher.AnyNodeNamed c!"b") []).Min 1).Max 3)
    let builder ← (← (← (← (← cypher.Match [(pat p)]).Where (co (← (← (← cypher.AProperty c!"a" c!"name").IsEqualTo (ex (← cypher.LiteralOf (.str c!"Alice")))).Get))).And (← (← (← cypher.AProperty c!"b" c!"name").IsEqualTo (ex (← cypher.LiteralOf (.str c!"Daniel")))).Get)).And (← (← (← cypher.PredicateAll c!"x").In (ex (← cypher.Nodes p))).Where (co (← (← (← cypher.AProperty c!"x" c!"age").Gt (ex (← cypher.LiteralOf (.int 30)))).Get)))).ReturningByNamed [(nm p)]
    let text0 ← built builder
    return [text0]) =
  some [c!"MATCH p = (a)-[*1..3]->(b) WHERE (a.name = 'Alice' AND b.name = 'Daniel' AND all(x IN nodes(p) WHERE x.age > 30)) RETURN p"] := by decide +kernel

/-- TestAnyShouldWork1WithNilCondition -/
example : printed (do
    let a ← cypher.AnyNodeNamed c!"a"
    let builder ← (← (← cypher.Match [(pat a)]).WhereNil).Returning [(ex (← a.Property c!"name")), (ex (← a.Property c!"array"))]
    let text0 ← built builder
    return [text0]) =
  some [c!"MATCH (a) RETURN a.name, a.array"] := by decide +kernel

/-- TestAnyShouldWork -/
example : printed (do
    let a ← cypher.AnyNodeNamed c!"a"
    let builder ← (← (← (← cypher.Match [(pat a)]).Where (co (← (← (← cypher.AProperty c!"a" c!"name").IsEqualTo (ex (← cypher.LiteralOf (.str c!"Eskil")))).Get))).And (← (← (← cypher.PredicateAny c!"x").In (ex (← a.Property c!"array"))).Where (co (← (← (← cypher.ASymbolic c!"x").IsEqualTo (ex (← cypher.LiteralOf (.str c!"one")))).Get)))).Returning [(ex (← a.Property c!"name")), (ex (← a.Property c!"array"))]
    let text0 ← built builder
    return [text0]) =
  some [c!"MATCH (a) WHERE (a.name = 'Eskil' AND any(x IN a.array WHERE x = 'one')) RETURN a.name, a.array"] := by decide +kernel

/-- TestNoneShouldWork -/
example : printed (do
    let p ← (← cypher.APath c!"p").DefinedBy (← (← (← (← cypher.AnyNodeNamed c!"a").RelationshipTo (← cypher.AnyNodeNamed c!"b") []).Min 1).Max 3)
    let builder ← (← (← (← cypher.Match [(pat p)]).Where (co (← (← (← cypher.AProperty c!"a" c!"name").IsEqualTo (ex (← cypher.LiteralOf (.str c!"Alice")))).Get))).And (← (← (← cypher.PredicateNone c!"x").In (ex (← cypher.Nodes p))).Where (co (← (← (← cypher.AProperty c!"x" c!"age").IsEqualTo (ex (← cypher.LiteralOf (.int 25)))).Get)))).ReturningByNamed [(nm p)]
    let text0 ← built builder
    return [text0]) =
  some [c!"MATCH p = (a)-[*1..3]->(b) WHERE (a.name = 'Alice' AND none(x IN nodes(p) WHERE x.age = 25)) RETURN p"] := by decide +kernel

/-- TestSingleShouldWork -/
example : printed (do
    let p ← (← cypher.APath c!"p").DefinedBy (← (← cypher.AnyNodeNamed c!"n").RelationshipTo (← cypher.AnyNodeNamed c!"b") [])
    let builder ← (← (← (← cypher.Match [(pat p)]).Where (co (← (← (← cypher.AProperty c!"n" c!"name").IsEqualTo (ex (← cypher.LiteralOf (.str c!"Alice")))).Get))).And (← (← (← cypher.PredicateSingle c!"var").In (ex (← cypher.Nodes p))).Where (co (← (← (← cypher.AProperty c!"var" c!"eyes").IsEqualTo (ex (← cypher.LiteralOf (.str c!"blue")))).Get)))).ReturningByNamed [(nm p)]
    let text0 ← built builder
    return [text0]) =
  some [c!"MATCH p = (n)-->(b) WHERE (n.name = 'Alice' AND single(var IN nodes(p) WHERE var.eyes = 'blue')) RETURN p"] := by decide +kernel

/-! ### test_cypher/cypherit/property_rendering_test.go -/

/-- TestNestedProperties -/
example : printed (do
    let node ← (← (← cypher.ANode c!"Test").NamedByString c!"test").WithRawProperties [(.str c!"outer"), (obj (← cypher.MapOf [(.str c!"a"), (obj (← cypher.LiteralOf (.str c!"b")))]))]
    let builder ← (← cypher.Match [(pat node)]).Returning [(ex (← cypher.AnAsterisk))]
    let text0 ← built builder
    return [text0]) =
  some [c!"MATCH (test:`Test` {outer: {a: 'b'}}) RETURN *"] := by decide +kernel

/-- TestShouldNotRenderPropertiesInReturn -/
example : printed (do
    let userNode ← userNodeM
    let bikeNode ← bikeNodeM
    let nodeWithProperties ← bikeNode.WithRawProperties [(.str c!"a"), (obj (← cypher.LiteralOf (.str c!"b")))]
    let builder ← (← cypher.Match [(pat nodeWithProperties), (pat (← nodeWithProperties.RelationshipFrom userNode [c!"OWNS"]))]).ReturningByNamed [(nm nodeWithProperties)]
    let text0 ← built builder
    return [text0]) =
  some [c!"MATCH (b:`Bike` {a: 'b'}), (b)<-[:`OWNS`]-(u:`User`) RETURN b"] := by decide +kernel

end Verif
