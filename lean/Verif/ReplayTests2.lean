import Verif.Replay

/-
The tests of the package in test_cypher/cypherit/double_rendering_test.go … test_cypher/cypherit/map_projection_on_relationship_test.go, translated by tools/replay.py: each `example` makes the calls of the test
in the model and compares what is printed with the text that the test expects.
-/

namespace Verif

/-! ### test_cypher/cypherit/double_rendering_test.go -/

/-- TestFragmentOfStatementShouldBeReusable -/
example : printed (do
    let personNode ← (← cypher.ANode c!"Person").NamedByString c!"p"
    let ageProperty ← personNode.Property c!"age"
    let returning ← (← cypher.Match [(pat personNode)]).ReturningByString [c!"p"]
    let builder1 ← (← returning.OrderBySortItem [(← ageProperty.Ascending)]).Limit 1
    let builder2 ← (← returning.OrderBySortItem [(← ageProperty.Descending)]).Limit 1
    let text0 ← built builder1
    let text1 ← built builder2
    return [text0, text1]) =
  some [c!"MATCH (p:`Person`) RETURN p ORDER BY p.age ASC LIMIT 1",
    c!"MATCH (p:`Person`) RETURN p ORDER BY p.age DESC LIMIT 1"] := by decide +kernel

/-- TestAliasedFunctionsShouldNotBeRenderedTwiceInProjection -/
example : printed (do
    let o ← (← cypher.ANode c!"Order").NamedByString c!"o"
    let li ← (← cypher.ANode c!"LineItem").NamedByString c!"li"
    let hasLineItems ← (← o.RelationshipTo li []).NamedByString c!"h"
    let netAmount ← (← cypher.Sum (ex (← (← (← li.Property c!"price").Multiply (ex (← li.Property c!"quantity"))).Get))).As c!"netAmount"
    let totalAmount ← (← netAmount.Multiply (ex (← (← (← cypher.LiteralOf (.int 1)).Add (ex (← cypher.AParam c!"taxRate"))).Get))).As c!"totalAmount"
    let returning ← (← (← (← cypher.Match [(pat hasLineItems)]).WhereConditionContainer (← (← o.Property c!"id").IsEqualTo (ex (← cypher.AParam c!"id")))).With [(ex (← o.GetRequiredSymbolicName)), (ex (← netAmount.Get)), (ex (← totalAmount.Get))]).Returning [(ex (← o.Project [(cont (← o.Property c!"x")), (cont (← netAmount.Get)), (cont (← totalAmount.Get)), (cont (← (← (← netAmount.Multiply (ex (← cypher.AParam c!"taxRate"))).As c!"taxAmount").Get))]))]
    let text0 ← built returning
    return [text0]) =
  some [c!"MATCH (o:`Order`)-[h]->(li:`LineItem`) WHERE o.id = $id WITH o, sum((li.price * li.quantity)) AS netAmount, (netAmount * (1 + $taxRate)) AS totalAmount RETURN o{.x, netAmount: netAmount, totalAmount: totalAmount, taxAmount: (netAmount * $taxRate)}"] := by decide +kernel

/-- TestAliasedFunctionsShouldNotBeRenderedTwiceInReturn -/
example : printed (do
    let o ← (← cypher.ANode c!"Order").NamedByString c!"o"
    let li ← (← cypher.ANode c!"LineItem").NamedByString c!"li"
    let hasLineItems ← (← o.RelationshipTo li []).NamedByString c!"h"
    let netAmount ← (← cypher.Sum (ex (← (← (← li.Property c!"price").Multiply (ex (← li.Property c!"quantity"))).Get))).As c!"netAmount"
    let totalAmount ← (← netAmount.Multiply (ex (← (← (← cypher.LiteralOf (.int 1)).Add (ex (← cypher.AParam c!"taxRate"))).Get))).As c!"totalAmount"
    let returning ← (← (← (← cypher.Match [(pat hasLineItems)]).WhereConditionContainer (← (← o.Property c!"id").IsEqualTo (ex (← cypher.AParam c!"id")))).With [(ex (← o.GetRequiredSymbolicName)), (ex (← netAmount.Get)), (ex (← totalAmount.Get))]).Returning [(ex (← netAmount.Get)), (ex (← totalAmount.Get))]
    let text0 ← built returning
    return [text0]) =
  some [c!"MATCH (o:`Order`)-[h]->(li:`LineItem`) WHERE o.id = $id WITH o, sum((li.price * li.quantity)) AS netAmount, (netAmount * (1 + $taxRate)) AS totalAmount RETURN netAmount, totalAmount"] := by decide +kernel

/-! ### test_cypher/cypherit/expression_test.go -/

/-- TestShouldRenderParameters -/
example : printed (do
    let userNode ← userNodeM
    let builder ← (← (← (← cypher.Match [(pat userNode)]).WhereConditionContainer (← (← userNode.Property c!"a").IsEqualTo (ex (← cypher.AParam c!"aParameter")))).DetachDeleteByNamed [(nm userNode)]).ReturningByNamed [(nm userNode)]
    let text0 ← built builder
    return [text0]) =
  some [c!"MATCH (u:`User`) WHERE u.a = $aParameter DETACH DELETE u RETURN u"] := by decide +kernel

/-- TestShouldRenderMap -/
example : printed (do
    let builder ← (← cypher.Match [(pat (← cypher.AnyNodeNamed c!"n"))]).Returning [(ex (← cypher.Point (ex (← cypher.MapOf [(.str c!"latitude"), (obj (← cypher.AParam c!"latitude")), (.str c!"longitude"), (obj (← cypher.AParam c!"longitude")), (.str c!"crs"), (obj (← cypher.LiteralOf (.int 4326)))]))))]
    let text0 ← built builder
    return [text0]) =
  some [c!"MATCH (n) RETURN point({latitude: $latitude, longitude: $longitude, crs: 4326})"] := by decide +kernel

/-- TestShouldRenderPointFunction -/
example : printed (do
    let n ← cypher.AnyNodeNamed c!"n"
    let builder ← (← (← cypher.Match [(pat n)]).WhereConditionContainer (← (← cypher.Distance (ex (← n.Property c!"location")) (ex (← cypher.PointByParameter (ex (← cypher.AParam c!"point.point"))))).Gt (ex (← cypher.AParam c!"point.distance")))).ReturningByNamed [(nm n)]
    let text0 ← built builder
    return [text0]) =
  some [c!"MATCH (n) WHERE distance(n.location, point($point.point)) > $point.distance RETURN n"] := by decide +kernel

/-! ### test_cypher/cypherit/function_rendering_test.go -/

/-- TestInWhereClause -/
example : printed (do
    let userNode ← userNodeM
    let statement ← (← (← (← cypher.Match [(pat userNode)]).Where (co (← (← (← userNode.InternalId).IsEqualTo (ex (← cypher.LiteralOf (.int 1)))).Get))).ReturningByNamed [(nm userNode)]).Build
    let text0 ← rendered statement
    return [text0]) =
  some [c!"MATCH (u:`User`) WHERE id(u) = 1 RETURN u"] := by decide +kernel

/-- TestInReturnClause -/
example : printed (do
    let userNode ← userNodeM
    let statement ← (← (← cypher.Match [(pat userNode)]).Returning [(ex (← cypher.Count userNode))]).Build
    let text0 ← rendered statement
    return [text0]) =
  some [c!"MATCH (u:`User`) RETURN count(u)"] := by decide +kernel

/-- TestInReturnClauseWithDistinct -/
example : printed (do
    let userNode ← userNodeM
    let statement ← (← (← cypher.Match [(pat userNode)]).Returning [(ex (← cypher.CountDistinct userNode))]).Build
    let text0 ← rendered statement
    return [text0]) =
  some [c!"MATCH (u:`User`) RETURN count(DISTINCT u)"] := by decide +kernel

/-- TestAliasedInReturnClause -/
example : printed (do
    let userNode ← userNodeM
    let statement ← (← (← cypher.Match [(pat userNode)]).Returning [(ex (← (← (← cypher.Count userNode).As c!"cnt").Get))]).Build
    let text0 ← rendered statement
    return [text0]) =
  some [c!"MATCH (u:`User`) RETURN count(u) AS cnt"] := by decide +kernel

/-- TestShouldSupportMoreThanOneArgument -/
example : printed (do
    let userNode ← userNodeM
    let statement ← (← (← cypher.Match [(pat userNode)]).Returning [(ex (← cypher.Coalesce [(ex (← userNode.Property c!"a")), (ex (← userNode.Property c!"b")), (ex (← cypher.LiteralOf (.str c!"¯\\_(ツ)_/¯")))]))]).Build
    let text0 ← rendered statement
    return [text0]) =
  some [c!"MATCH (u:`User`) RETURN coalesce(u.a, u.b, '¯\\\\_(ツ)_/¯')"] := by decide +kernel

/-- TestLiteralShouldDealWithNil -/
example : printed (do
    let userNode ← userNodeM
    let statement ← (← (← cypher.Match [(pat userNode)]).Returning [(ex (← (← (← cypher.Coalesce [(ex (← cypher.LiteralOf .nil)), (ex (← userNode.Property c!"field"))]).As c!"p").Get))]).Build
    let text0 ← rendered statement
    return [text0]) =
  some [c!"MATCH (u:`User`) RETURN coalesce(NULL, u.field) AS p"] := by decide +kernel

/-- TestFunctionBaseOnRelationship -/
example : printed (do
    let relationShip ← (← (← (← (← cypher.ANode c!"Person").NamedByString c!"bacon").WithRawProperties [(.str c!"name"), (obj (← cypher.LiteralOf (.str c!"Kevin Bacon")))]).RelationshipBetween (← (← (← cypher.ANode c!"Person").NamedByString c!"meg").WithRawProperties [(.str c!"name"), (obj (← cypher.LiteralOf (.str c!"Meg Ryan")))]) []).Unbounded
    let statement ← (← (← cypher.Match [(pat (← (← cypher.AShortestPath c!"p").DefinedBy relationShip))]).ReturningByString [c!"p"]).Build
    let text0 ← rendered statement
    return [text0]) =
  some [c!"MATCH p = shortestPath((bacon:`Person` {name: 'Kevin Bacon'})-[*]-(meg:`Person` {name: 'Meg Ryan'})) RETURN p"] := by decide +kernel

/-- TestFunctionBaseOnRelationship_RawProperties -/
example : printed (do
    let relationShip ← (← (← (← (← cypher.ANode c!"Person").NamedByString c!"bacon").WithRawProperties [(.str c!"name"), (.str c!"Kevin Bacon")]).RelationshipBetween (← (← (← cypher.ANode c!"Person").NamedByString c!"meg").WithRawProperties [(.str c!"name"), (obj (← cypher.LiteralOf (.str c!"Meg Ryan")))]) []).Unbounded
    let statement ← (← (← cypher.Match [(pat (← (← cypher.AShortestPath c!"p").DefinedBy relationShip))]).ReturningByString [c!"p"]).Build
    let text0 ← rendered statement
    return [text0]) =
  some [c!"MATCH p = shortestPath((bacon:`Person` {name: 'Kevin Bacon'})-[*]-(meg:`Person` {name: 'Meg Ryan'})) RETURN p"] := by decide +kernel

/-! ### test_cypher/cypherit/issues_test.go -/

/-- TestGh70 -/
example : printed (do
    let strawberry ← (← cypher.NewNodeWithProperties c!"Fruit" (ex (← cypher.MapOf [(.str c!"kind"), (obj (← cypher.LiteralOf (.str c!"strawberry")))])) []).NamedByString c!"s"
    let builder ← (← cypher.Match [(pat strawberry)]).Set [(ex (← (← strawberry.Property c!"color").To (ex (← cypher.LiteralOf (.str c!"red")))))]
    let text0 ← built builder
    return [text0]) =
  some [c!"MATCH (s:`Fruit` {kind: 'strawberry'}) SET s.color = 'red'"] := by decide +kernel

/-- TestGh167 -/
example : printed (do
    let app ← (← (← cypher.ANode c!"Location").NamedByString c!"app").WithRawProperties [(.str c!"uuid"), (obj (← cypher.AParam c!"app_uuid"))]
    let locStart ← (← cypher.ANode c!"Location").NamedByString c!"loc_start"
    let resume ← (← cypher.ANode c!"Resume").NamedByString c!"r"
    let offer ← (← cypher.ANode c!"Offer").NamedByString c!"o"
    let startN ← (← cypher.ANode c!"ResumeNode").NamedByString c!"start_n"
    let aFl ← (← app.RelationshipFrom locStart [c!"PART_OF"]).Length 0 3
    let lFr ← locStart.RelationshipFrom resume [c!"IN", c!"IN_ANALYTICS"]
    let builder ← (← (← (← (← (← (← cypher.Match [(pat aFl), (pat lFr)]).WithDistinctByNamed [(nm resume), (nm locStart), (nm app)]).Match [(pat (← (← resume.RelationshipTo (← offer.WithRawProperties [(.str c!"is_valid"), (obj (← cypher.LiteralTrue))]) [c!"IN_COHORT_OF"]).RelationshipTo (← cypher.AnyNodeNamed c!"app") [c!"IN"]))]).WithDistinctByNamed [(nm resume), (nm locStart), (nm app), (nm offer)]).Match [(pat (← offer.RelationshipTo startN [c!"FOR"]))]).Where (co (← (← (← cypher.IdByNode startN).In (ex (← cypher.AParam c!"start_ids"))).Get))).ReturningDistinctByNamed [(nm resume), (nm locStart), (nm app), (nm offer), (nm startN)]
    let text0 ← built builder
    return [text0]) =
  some [c!"MATCH (app:`Location` {uuid: $app_uuid})<-[:`PART_OF`*0..3]-(loc_start:`Location`), (loc_start)<-[:`IN`|`IN_ANALYTICS`]-(r:`Resume`) WITH DISTINCT r, loc_start, app MATCH (r)-[:`IN_COHORT_OF`]->(o:`Offer` {is_valid: true})-[:`IN`]->(app) WITH DISTINCT r, loc_start, app, o MATCH (o:`Offer`)-[:`FOR`]->(start_n:`ResumeNode`) WHERE id(start_n) IN $start_ids RETURN DISTINCT r, loc_start, app, o, start_n"] := by decide +kernel

/-- TestGh174 -/
example : printed (do
    let r ← (← cypher.ANode c!"Resume").NamedByString c!"r"
    let o ← (← cypher.ANode c!"Offer").NamedByString c!"o"
    let builder ← (← (← (← cypher.Match [(pat (← r.RelationshipTo o [c!"FOR"]))]).Where (co (← (← (← r.HasLabels [c!"LastResume"]).Not).Get))).And (← (← (← (← (← cypher.Coalesce [(ex (← o.Property c!"valid_only")), (ex (← cypher.LiteralFalse))]).IsEqualTo (ex (← cypher.LiteralFalse))).And (← (← (← r.HasLabels [c!"InvalidStatus"]).Not).Get)).Or (co (← (← (← (← o.Property c!"valid_only").IsTrue).And (← r.HasLabels [c!"InvalidStatus"])).Get))).Get)).ReturningDistinctByNamed [(nm r), (nm o)]
    let text0 ← built builder
    return [text0]) =
  some [c!"MATCH (r:`Resume`)-[:`FOR`]->(o:`Offer`) WHERE (NOT (r:`LastResume`) AND (coalesce(o.valid_only, false) = false AND NOT (r:`InvalidStatus`) OR (o.valid_only = true AND r:`InvalidStatus`))) RETURN DISTINCT r, o"] := by decide +kernel

/-- TestGh184 -/
example : printed (do
    let r ← (← cypher.ANode c!"Resume").NamedByString c!"r"
    let u ← (← cypher.ANode c!"UserSearchable").NamedByString c!"u"
    let o ← (← cypher.ANode c!"Offer").NamedByString c!"o"
    let builder ← (← (← (← (← (← cypher.Match [(pat (← r.RelationshipFrom u [c!"HAS"]))]).Where (co (← (← (← r.HasLabels [c!"LastResume"]).Not).Get))).And (← (← (← (← (← cypher.Coalesce [(ex (← o.Property c!"valid_only")), (ex (← cypher.LiteralFalse))]).IsEqualTo (ex (← cypher.LiteralFalse))).And (← (← (← r.HasLabels [c!"InvalidStatus"]).Not).Get)).Or (co (← (← (← (← o.Property c!"valid_only").IsTrue).And (← r.HasLabels [c!"ValidStatus"])).Get))).Get)).And (← (← (← (← (← r.Property c!"is_internship").IsTrue).And (← (← (← cypher.SizeByPattern (pat (← r.RelationshipTo (← cypher.AnyNode) [c!"PART_OF"]))).IsEmpty).Get)).Not).Get)).And (← (← (← (← (← r.Property c!"is_sandwich_training").IsTrue).And (← (← (← cypher.SizeByPattern (pat (← r.RelationshipTo (← cypher.AnyNode) [c!"PART_OF"]))).IsEmpty).Get)).Not).Get)).ReturningDistinctByNamed [(nm r), (nm o)]
    let text0 ← built builder
    return [text0]) =
  some [c!"MATCH (r:`Resume`)<-[:`HAS`]-(u:`UserSearchable`) WHERE (NOT (r:`LastResume`) AND (coalesce(o.valid_only, false) = false AND NOT (r:`InvalidStatus`) OR (o.valid_only = true AND r:`ValidStatus`)) AND NOT ((r.is_internship = true AND size(size((r)-[:`PART_OF`]->())) = 0)) AND NOT ((r.is_sandwich_training = true AND size(size((r)-[:`PART_OF`]->())) = 0))) RETURN DISTINCT r, o"] := by decide +kernel

/-- TestGh185 -/
example : printed (do
    let r ← (← cypher.ANode c!"Resume").NamedByString c!"r"
    let u ← (← cypher.ANode c!"UserSearchable").NamedByString c!"u"
    let builder ← (← (← cypher.Match [(pat (← r.RelationshipFrom u [c!"HAS"]))]).Where (co (← cypher.ConditionsNot (co (← cypher.PredicateExistsByPattern (pat (← r.RelationshipTo u [c!"EXCLUDES"]))))))).ReturningDistinctByNamed [(nm r)]
    let text0 ← built builder
    return [text0]) =
  some [c!"MATCH (r:`Resume`)<-[:`HAS`]-(u:`UserSearchable`) WHERE NOT (exists((r)-[:`EXCLUDES`]->(u))) RETURN DISTINCT r"] := by decide +kernel

/-- TestGh187 -/
example : printed (do
    let r ← (← cypher.ANode c!"Resume").NamedByString c!"r"
    let u ← (← cypher.ANode c!"User").NamedByString c!"u"
    let builder ← (← (← cypher.Match [(pat (← r.RelationshipFrom u [c!"HAS"]))]).With [(ex (← (← (← cypher.Head (ex (← cypher.Collect (ex (← r.GetRequiredSymbolicName))))).As c!"r").Get))]).ReturningByNamed [(nm r)]
    let text0 ← built builder
    return [text0]) =
  some [c!"MATCH (r:`Resume`)<-[:`HAS`]-(u:`User`) WITH head(collect(r)) AS r RETURN r"] := by decide +kernel

/-- TestGh188 -/
example : printed (do
    let r ← (← cypher.ANode c!"Resume").NamedByString c!"r"
    let u ← (← cypher.ANode c!"User").NamedByString c!"u"
    let builder ← (← cypher.Match [(pat (← r.RelationshipFrom u [c!"HAS"]))]).Returning [(ex (← (← (← cypher.CountDistinctByExpression (ex (← r.GetRequiredSymbolicName))).As c!"r").Get))]
    let text0 ← built builder
    return [text0]) =
  some [c!"MATCH (r:`Resume`)<-[:`HAS`]-(u:`User`) RETURN count(DISTINCT r) AS r"] := by decide +kernel

/-- TestGh197 -/
example : printed (do
    let n ← (← cypher.ANode c!"Person").NamedByString c!"n"
    let builder ← (← cypher.Match [(pat n)]).Returning [(ex (← cypher.Avg (ex (← n.Property c!"age"))))]
    let text0 ← built builder
    let list ← cypher.ListOf [(ex (← cypher.LiteralOf (.int 1))), (ex (← cypher.LiteralOf (.str c!"a"))), (ex (← cypher.LiteralOf .nil)), (ex (← cypher.LiteralOf (.float (GoFloat.fin false 3602879701896397 (-54))))), (ex (← cypher.LiteralOf (.str c!"b"))), (ex (← cypher.LiteralOf (.str c!"1"))), (ex (← cypher.LiteralOf (.str c!"99")))]
    let builder ← (← (← cypher.Unwind (ex list)).As c!"val").Returning [(ex (← cypher.Max (ex (← cypher.ASymbolic c!"val"))))]
    let text1 ← built builder
    let builder ← (← (← cypher.Unwind (ex list)).As c!"val").Returning [(ex (← cypher.Min (ex (← cypher.ASymbolic c!"val"))))]
    let text2 ← built builder
    let builder ← (← cypher.Match [(pat n)]).Returning [(ex (← cypher.PercentileCont (ex (← n.Property c!"age")) (GoFloat.fin false 3602879701896397 (-53))))]
    let text3 ← built builder
    let builder ← (← cypher.Match [(pat n)]).Returning [(ex (← cypher.PercentileDisc (ex (← n.Property c!"age")) (GoFloat.fin false 1 (-1))))]
    let text4 ← built builder
    let builder ← (← (← cypher.Match [(pat n)]).Where (co (← (← (← n.Property c!"name").In (ex (← cypher.ListOf [(ex (← cypher.LiteralOf (.str c!"A"))), (ex (← cypher.LiteralOf (.str c!"B"))), (ex (← cypher.LiteralOf (.str c!"C")))]))).Get))).Returning [(ex (← cypher.StDev (ex (← n.Property c!"age"))))]
    let text5 ← built builder
    let builder ← (← (← cypher.Match [(pat n)]).Where (co (← (← (← n.Property c!"name").In (ex (← cypher.ListOf [(ex (← cypher.LiteralOf (.str c!"A"))), (ex (← cypher.LiteralOf (.str c!"B"))), (ex (← cypher.LiteralOf (.str c!"C")))]))).Get))).Returning [(ex (← cypher.StDevP (ex (← n.Property c!"age"))))]
    let text6 ← built builder
    let builder ← (← (← cypher.Match [(pat n)]).With [(ex (← (← (← cypher.ListOf [(ex (← cypher.MapOf [(.str c!"type"), (obj (← n.GetRequiredSymbolicName)), (.str c!"nb"), (obj (← cypher.Sum (ex (← n.GetRequiredSymbolicName))))]))]).As c!"counts").Get))]).Returning [(ex (← cypher.Sum (ex (← n.Property c!"age"))))]
    let text7 ← built builder
    return [text0, text1, text2, text3, text4, text5, text6, text7]) =
  some [c!"MATCH (n:`Person`) RETURN avg(n.age)",
    c!"UNWIND [1, 'a', NULL, 0.2, 'b', '1', '99'] AS val RETURN max(val)",
    c!"UNWIND [1, 'a', NULL, 0.2, 'b', '1', '99'] AS val RETURN min(val)",
    c!"MATCH (n:`Person`) RETURN percentileCont(n.age, 0.4)",
    c!"MATCH (n:`Person`) RETURN percentileDisc(n.age, 0.5)",
    c!"MATCH (n:`Person`) WHERE n.name IN ['A', 'B', 'C'] RETURN stDev(n.age)",
    c!"MATCH (n:`Person`) WHERE n.name IN ['A', 'B', 'C'] RETURN stDevP(n.age)",
    c!"MATCH (n:`Person`) WITH [{type: n, nb: sum(n)}] AS counts RETURN sum(n.age)"] := by decide +kernel

/-- TestGh200 -/
example : printed (do
    let r ← (← cypher.ANode c!"Resume").NamedByString c!"r"
    let builder ← (← (← cypher.Match [(pat r)]).With [(ex (← r.GetRequiredSymbolicName))]).ReturningDistinct [(ex (← r.GetRequiredSymbolicName))]
    let text0 ← built builder
    return [text0]) =
  some [c!"MATCH (r:`Resume`) WITH r RETURN DISTINCT r"] := by decide +kernel

/-- TestGh204 -/
example : printed (do
    let a ← (← cypher.ANode c!"A").NamedByString c!"a"
    let b ← (← cypher.ANode c!"B").NamedByString c!"b"
    let c ← (← cypher.ANode c!"C").NamedByString c!"c"
    let builder ← (← cypher.Match [(pat (← (← (← a.RelationshipTo b []).RelationshipTo c []).Max 2))]).ReturningByNamed [(nm a)]
    let text0 ← built builder
    return [text0]) =
  some [c!"MATCH (a:`A`)-->(b:`B`)-[*..2]->(c:`C`) RETURN a"] := by decide +kernel

/-- TestGh245 -/
example : printed (do
    let n ← (← cypher.ANode c!"Person").NamedByString c!"p"
    let builder ← (← cypher.Match [(pat n)]).Returning [(ex (← n.Project [(.str c!"alias"), (cont (← n.Property c!"name"))]))]
    let text0 ← built builder
    let builder ← (← cypher.Match [(pat n)]).Returning [(ex (← n.Project [(cont (← (← (← n.Property c!"name").As c!"alias").Get))]))]
    let text1 ← built builder
    return [text0, text1]) =
  some [c!"MATCH (p:`Person`) RETURN p{alias: p.name}",
    c!"MATCH (p:`Person`) RETURN p{alias: p.name}"] := by decide +kernel

/-- TestGh44 -/
example : printed (do
    let n ← cypher.AnyNodeNamed c!"n"
    let builder ← (← cypher.Match [(pat n)]).Returning [(ex (← (← (← cypher.CollectDistinctByNamed n).As c!"distinctNodes").Get))]
    let text0 ← built builder
    return [text0]) =
  some [c!"MATCH (n) RETURN collect(DISTINCT n) AS distinctNodes"] := by decide +kernel

/-- TestGh84 -/
example : printed (do
    let parent ← (← cypher.ANode c!"Parent").NamedByString c!"parent"
    let child ← (← cypher.ANode c!"Child").NamedByString c!"child"
    let builder ← (← (← cypher.ACall [c!"apoc.create.relationship"]).WithArgs [(ex (← parent.GetRequiredSymbolicName)), (ex (← cypher.LiteralOf (.str c!"ChildEdge"))), (ex (← cypher.MapOf [(.str c!"score"), (obj (← cypher.LiteralOf (.float (GoFloat.fin false 5944751508129055 (-54))))), (.str c!"weight"), (obj (← cypher.LiteralOf (.float (GoFloat.fin false 7656119366529843 (-52)))))])), (ex (← child.GetRequiredSymbolicName))]).YieldString [c!"rel"]
    let text0 ← built builder
    return [text0]) =
  some [c!"CALL apoc.create.relationship(parent, 'ChildEdge', {score: 0.33, weight: 1.7}, child) YIELD rel"] := by decide +kernel

/-- TestAliasesShouldBeEscapedIfNecessary -/
example : printed (do
    let alias ← (← (← cypher.ASymbolic c!"n").As c!"das ist ein Alias").Get
    let builder ← (← (← cypher.Match [(pat (← (← cypher.AnyNode).NamedByString c!"n"))]).With [(ex alias)]).Returning [(ex alias)]
    let text0 ← built builder
    return [text0]) =
  some [c!"MATCH (n) WITH n AS `das ist ein Alias` RETURN `das ist ein Alias`"] := by decide +kernel

/-- TestProjectedPropertiesShouldBeEscapedIfNecessary -/
example : printed (do
    let node ← (← cypher.AnyNode).NamedByString c!"n"
    let builder ← (← cypher.Match [(pat node)]).Returning [(ex (← node.Project [(.str c!"property 1"), (.str c!"property 2")]))]
    let text0 ← built builder
    return [text0]) =
  some [c!"MATCH (n) RETURN n{.`property 1`, .`property 2`}"] := by decide +kernel

/-- TestMapKeysShouldBeEscapedIfNecessary -/
example : printed (do
    let builder ← cypher.CypherReturning [(ex (← cypher.MapOf [(.str c!"key 1"), (obj (← cypher.LiteralTrue)), (.str c!"key 2"), (obj (← cypher.LiteralFalse))]))]
    let text0 ← built builder
    return [text0]) =
  some [c!"RETURN {`key 1`: true, `key 2`: false}"] := by decide +kernel

/-! ### test_cypher/cypherit/list_comprehension_test.go -/

/-- TestListComprehensionSimple -/
example : printed (do
    let name ← cypher.ASymbolic c!"a"
    let builder ← cypher.CypherReturning [(ex (← (← (← cypher.CypherListWith (ex name)).In (ex (← cypher.ListOf [(ex (← cypher.LiteralOf (.int 1))), (ex (← cypher.LiteralOf (.int 2))), (ex (← cypher.LiteralOf (.int 3))), (ex (← cypher.LiteralOf (.int 4)))]))).ReturningDefault))]
    let text0 ← built builder
    return [text0]) =
  some [c!"RETURN [a IN [1, 2, 3, 4]]"] := by decide +kernel

/-- TestWithReturning -/
example : printed (do
    let name ← cypher.ASymbolic c!"a"
    let builder ← cypher.CypherReturning [(ex (← (← (← cypher.CypherListWith (ex name)).In (ex (← cypher.ListOf [(ex (← cypher.LiteralOf (.int 1))), (ex (← cypher.LiteralOf (.int 2))), (ex (← cypher.LiteralOf (.int 3))), (ex (← cypher.LiteralOf (.int 4)))]))).Returning [(ex (← (← name.Remainder (ex (← cypher.LiteralOf (.int 2)))).Get))]))]
    let text0 ← built builder
    return [text0]) =
  some [c!"RETURN [a IN [1, 2, 3, 4] | (a % 2)]"] := by decide +kernel

/-- TestWithWhere -/
example : printed (do
    let name ← cypher.ASymbolic c!"a"
    let builder ← cypher.CypherReturning [(ex (← (← (← (← cypher.CypherListWith (ex name)).In (ex (← cypher.ListOf [(ex (← cypher.LiteralOf (.int 1))), (ex (← cypher.LiteralOf (.int 2))), (ex (← cypher.LiteralOf (.int 3))), (ex (← cypher.LiteralOf (.int 4)))]))).Where (co (← (← name.Gt (ex (← cypher.LiteralOf (.int 2)))).Get))).ReturningDefault))]
    let text0 ← built builder
    return [text0]) =
  some [c!"RETURN [a IN [1, 2, 3, 4] WHERE a > 2]"] := by decide +kernel

/-- TestWithWhereAndReturning -/
example : printed (do
    let name ← cypher.ASymbolic c!"a"
    let builder ← cypher.CypherReturning [(ex (← (← (← (← cypher.CypherListWith (ex name)).In (ex (← cypher.ListOf [(ex (← cypher.LiteralOf (.int 1))), (ex (← cypher.LiteralOf (.int 2))), (ex (← cypher.LiteralOf (.int 3))), (ex (← cypher.LiteralOf (.int 4)))]))).Where (co (← (← name.Gt (ex (← cypher.LiteralOf (.int 2)))).Get))).Returning [(ex (← (← name.Remainder (ex (← cypher.LiteralOf (.int 2)))).Get))]))]
    let text0 ← built builder
    return [text0]) =
  some [c!"RETURN [a IN [1, 2, 3, 4] WHERE a > 2 | (a % 2)]"] := by decide +kernel

/-- TestSomeMoreExample -/
example : printed (do
    let name ← cypher.ASymbolic c!"x"
    let builder ← cypher.CypherReturning [(ex (← (← (← (← (← (← cypher.CypherListWith (ex name)).In (ex (← cypher.Range (ex (← cypher.LiteralOf (.int 0))) (ex (← cypher.LiteralOf (.int 10)))))).Where (co (← (← (← name.Remainder (ex (← cypher.LiteralOf (.int 2)))).IsEqualTo (ex (← cypher.LiteralOf (.int 0)))).Get))).Returning [(ex (← (← name.Pow (ex (← cypher.LiteralOf (.int 3)))).Get))]).As c!"result").Get))]
    let text0 ← built builder
    let builder ← cypher.CypherReturning [(ex (← (← (← (← (← (← cypher.CypherListWith (ex name)).In (ex (← cypher.Range (ex (← cypher.LiteralOf (.int 0))) (ex (← cypher.LiteralOf (.int 10)))))).Where (co (← (← (← name.Remainder (ex (← cypher.LiteralOf (.int 2)))).IsEqualTo (ex (← cypher.LiteralOf (.int 0)))).Get))).ReturningDefault).As c!"result").Get))]
    let text1 ← built builder
    let builder ← cypher.CypherReturning [(ex (← (← (← (← (← cypher.CypherListWith (ex name)).In (ex (← cypher.Range (ex (← cypher.LiteralOf (.int 0))) (ex (← cypher.LiteralOf (.int 10)))))).Returning [(ex (← (← name.Pow (ex (← cypher.LiteralOf (.int 3)))).Get))]).As c!"result").Get))]
    let text2 ← built builder
    return [text0, text1, text2]) =
  some [c!"RETURN [x IN range(0, 10) WHERE (x % 2) = 0 | x^3] AS result",
    c!"RETURN [x IN range(0, 10) WHERE (x % 2) = 0] AS result",
    c!"RETURN [x IN range(0, 10) | x^3] AS result"] := by decide +kernel

/-! ### test_cypher/cypherit/list_literal_test.go -/

/-- TestListLiteralAcceptShouldWork -/
example : printed (do
    let content ← pure [(← cypher.LiteralOf (.int 1)), (← cypher.LiteralOf (.str c!"test")), (← cypher.LiteralOf (.bool true))]
    let listLiteral ← cypher.ListLiteralCreate content
    let builder ← cypher.CypherReturning [(ex listLiteral)]
    let text0 ← built builder
    return [text0]) =
  some [c!"RETURN [1, 'test', true]"] := by decide +kernel

/-- TestListLiteralWithNestedContent -/
example : printed (do
    let innerList ← cypher.ListLiteralCreate [(← cypher.LiteralOf (.int 2)), (← cypher.LiteralOf (.int 3))]
    let outerList ← cypher.ListLiteralCreate [(← cypher.LiteralOf (.int 1)), innerList, (← cypher.LiteralOf (.str c!"nested"))]
    let builder ← cypher.CypherReturning [(ex outerList)]
    let text0 ← built builder
    return [text0]) =
  some [c!"RETURN [1, [2, 3], 'nested']"] := by decide +kernel

/-! ### test_cypher/cypherit/list_operator_test.go -/

/-- TestValueAtShouldWork -/
example : printed (do
    let builder ← cypher.CypherReturning [(ex (← cypher.CypherValueAt (ex (← cypher.RangeRaw 0 10)) 3))]
    let text0 ← built builder
    return [text0]) =
  some [c!"RETURN range(0, 10)[3]"] := by decide +kernel

/-- TestSubListUntilShouldWork -/
example : printed (do
    let builder ← cypher.CypherReturning [(ex (← cypher.ASubListUntil (ex (← cypher.RangeRaw 0 10)) 3))]
    let text0 ← built builder
    return [text0]) =
  some [c!"RETURN range(0, 10)[..3]"] := by decide +kernel

/-- TestSubListFromShouldWork -/
example : printed (do
    let builder ← cypher.CypherReturning [(ex (← cypher.CypherSubListFrom (ex (← cypher.RangeRaw 0 10)) (-3)))]
    let text0 ← built builder
    return [text0]) =
  some [c!"RETURN range(0, 10)[-3..]"] := by decide +kernel

/-- TestSubListShouldWork -/
example : printed (do
    let builder ← cypher.CypherReturning [(ex (← cypher.ASubList (ex (← cypher.RangeRaw 0 10)) 2 4))]
    let text0 ← built builder
    return [text0]) =
  some [c!"RETURN range(0, 10)[2..4]"] := by decide +kernel

/-- TestShouldWorkWithMapProjections -/
example : printed (do
    let person ← (← cypher.ANode c!"Person").NamedByString c!"person"
    let location ← (← cypher.ANode c!"Location").NamedByString c!"personLivesIn"
    let builder ← (← cypher.Match [(pat person)]).Returning [(ex (← person.Project [(.str c!"livesIn"), (cont (← cypher.CypherValueAt (ex (← (← cypher.ListBasedOn (pat (← person.RelationshipTo location [c!"LIVES_IN"]))).Returning [(ex (← location.Project [(.str c!"name")]))])) 0))]))]
    let text0 ← built builder
    return [text0]) =
  some [c!"MATCH (person:`Person`) RETURN person{livesIn: [(person)-[:`LIVES_IN`]->(personLivesIn:`Location`) | personLivesIn{.name}][0]}"] := by decide +kernel

/-- TestShouldSupportExpressions -/
example : printed (do
    let person ← (← cypher.ANode c!"Person").NamedByString c!"person"
    let location ← (← cypher.ANode c!"Location").NamedByString c!"personLivesIn"
    let builder ← (← cypher.Match [(pat person)]).Returning [(ex (← person.Project [(.str c!"livesIn"), (cont (← cypher.SubList (ex (← (← cypher.ListBasedOn (pat (← person.RelationshipTo location [c!"LIVES_IN"]))).Returning [(ex (← location.Project [(.str c!"name")]))])) (ex (← cypher.AParam c!"personLivedInOffset")) (ex (← (← (← cypher.AParam c!"personLivedInOffset").Add (ex (← cypher.AParam c!"personLivedInFirst"))).Get))))]))]
    let text0 ← built builder
    return [text0]) =
  some [c!"MATCH (person:`Person`) RETURN person{livesIn: [(person)-[:`LIVES_IN`]->(personLivesIn:`Location`) | personLivesIn{.name}][$personLivedInOffset..($personLivedInOffset + $personLivedInFirst)]}"] := by decide +kernel

/-! ### test_cypher/cypherit/map_projection_on_node_test.go -/

/-- TestProjectionSimple -/
example : printed (do
    let n ← cypher.AnyNodeNamed c!"n"
    let builder ← (← cypher.Match [(pat n)]).Returning [(ex (← n.Project [(.str c!"__internalNeo4jId__"), (cont (← cypher.IdByNode n)), (.str c!"name")]))]
    let text0 ← built builder
    let builder ← (← cypher.Match [(pat n)]).Returning [(ex (← n.Project [(.str c!"name"), (.str c!"__internalNeo4jId__"), (cont (← cypher.IdByNode n))]))]
    let text1 ← built builder
    return [text0, text1]) =
  some [c!"MATCH (n) RETURN n{__internalNeo4jId__: id(n), .name}",
    c!"MATCH (n) RETURN n{.name, __internalNeo4jId__: id(n)}"] := by decide +kernel

/-- TestDoc21221 -/
example : printed (do
    let actor ← (← cypher.ANode c!"Person").NamedByString c!"actor"
    let movie ← (← cypher.ANode c!"Movie").NamedByString c!"movie"
    let builder ← (← cypher.Match [(pat (← (← actor.WithRawProperties [(.str c!"name"), (obj (← cypher.LiteralOf (.str c!"Tom Hanks")))]).RelationshipTo movie [c!"ACTED_IN"]))]).Returning [(ex (← actor.Project [(.str c!"name"), (.str c!"realName"), (.str c!"movies"), (cont (← cypher.Collect (ex (← movie.Project [(.str c!"title"), (.str c!"released")]))))]))]
    let text0 ← built builder
    let builder ← (← cypher.Match [(pat (← (← actor.WithRawProperties [(.str c!"name"), (obj (← cypher.LiteralOf (.str c!"Tom Hanks")))]).RelationshipTo movie [c!"ACTED_IN"]))]).Returning [(ex (← actor.Project [(.str c!"name"), (.str c!"realName"), (.str c!"movies"), (cont (← cypher.Collect (ex (← movie.Project [(cont (← movie.Property c!"title")), (cont (← movie.Property c!"released"))]))))]))]
    let text1 ← built builder
    let builder ← (← cypher.Match [(pat (← (← actor.WithRawProperties [(.str c!"name"), (obj (← cypher.LiteralOf (.str c!"Tom Hanks")))]).RelationshipTo movie [c!"ACTED_IN"]))]).Returning [(ex (← actor.Project [(.str c!"name"), (.str c!"realName"), (.str c!"movies"), (cont (← cypher.Collect (ex (← movie.Project [(.str c!"title"), (.str c!"year"), (cont (← movie.Property c!"released"))]))))]))]
    let text2 ← built builder
    return [text0, text1, text2]) =
  some [c!"MATCH (actor:`Person` {name: 'Tom Hanks'})-[:`ACTED_IN`]->(movie:`Movie`) RETURN actor{.name, .realName, movies: collect(movie{.title, .released})}",
    c!"MATCH (actor:`Person` {name: 'Tom Hanks'})-[:`ACTED_IN`]->(movie:`Movie`) RETURN actor{.name, .realName, movies: collect(movie{.title, .released})}",
    c!"MATCH (actor:`Person` {name: 'Tom Hanks'})-[:`ACTED_IN`]->(movie:`Movie`) RETURN actor{.name, .realName, movies: collect(movie{.title, year: movie.released})}"] := by decide +kernel

/-- TestNested -/
example : printed (do
    let n ← (← cypher.ANode c!"Person").NamedByString c!"p"
    let m ← (← cypher.ANode c!"Movie").NamedByString c!"m"
    let builder ← (← cypher.Match [(pat (← n.RelationshipTo m [c!"ACTED_IN"]))]).Returning [(ex (← n.Project [(.str c!"__internalNeo4jId__"), (cont (← cypher.IdByNode n)), (.str c!"name"), (.str c!"nested"), (cont (← m.Project [(.str c!"title"), (.str c!"__internalNeo4jId__"), (cont (← cypher.IdByNode m))]))]))]
    let text0 ← built builder
    return [text0]) =
  some [c!"MATCH (p:`Person`)-[:`ACTED_IN`]->(m:`Movie`) RETURN p{__internalNeo4jId__: id(p), .name, nested: m{.title, __internalNeo4jId__: id(m)}}"] := by decide +kernel

/-- TestAddedProjections -/
example : printed (do
    let p ← (← cypher.ANode c!"Person").NamedByString c!"p"
    let m ← (← cypher.ANode c!"Movie").NamedByString c!"m"
    let rel ← (← p.RelationshipTo m [c!"ACTED_IN"]).NamedByString c!"r"
    let builder ← (← cypher.Match [(pat rel)]).Returning [(ex (← (← (← (← (← p.Project [(.str c!"__internalNeo4jId__"), (cont (← cypher.IdByNode p)), (.str c!"name")]).And rel).And m).And (← p.Property c!"foo")).Ands [(.str c!"a"), (cont (← p.Property c!"x"))]))]
    let text0 ← built builder
    return [text0]) =
  some [c!"MATCH (p:`Person`)-[r:`ACTED_IN`]->(m:`Movie`) RETURN p{__internalNeo4jId__: id(p), .name, r, m, .foo, a: p.x}"] := by decide +kernel

/-! ### test_cypher/cypherit/map_projection_on_relationship_test.go -/

/-- TestProjectionSimpleOnRelationship -/
example : printed (do
    let p ← (← cypher.ANode c!"Person").NamedByString c!"p"
    let m ← (← cypher.ANode c!"Movie").NamedByString c!"m"
    let rel ← (← p.RelationshipTo m [c!"ACTED_IN"]).NamedByString c!"r"
    let builder ← (← cypher.Match [(pat rel)]).Returning [(ex (← rel.Project [(.str c!"__internalNeo4jId__"), (cont (← cypher.IdByRelationship rel)), (.str c!"roles")]))]
    let text0 ← built builder
    return [text0]) =
  some [c!"MATCH (p:`Person`)-[r:`ACTED_IN`]->(m:`Movie`) RETURN r{__internalNeo4jId__: id(r), .roles}"] := by decide +kernel

/-- TestNestedOnRelationship -/
example : printed (do
    let p ← (← cypher.ANode c!"Person").NamedByString c!"p"
    let m ← (← cypher.ANode c!"Movie").NamedByString c!"m"
    let rel ← (← p.RelationshipTo m [c!"ACTED_IN"]).NamedByString c!"r"
    let builder ← (← cypher.Match [(pat rel)]).Returning [(ex (← m.Project [(.str c!"title"), (.str c!"roles"), (cont (← rel.Project [(.str c!"__internalNeo4jId__"), (cont (← cypher.IdByRelationship rel)), (.str c!"roles")]))]))]
    let text0 ← built builder
    return [text0]) =
  some [c!"MATCH (p:`Person`)-[r:`ACTED_IN`]->(m:`Movie`) RETURN m{.title, roles: r{__internalNeo4jId__: id(r), .roles}}"] := by decide +kernel

/-- TestAsterisk -/
example : printed (do
    let n ← cypher.AnyNodeNamed c!"n"
    let builder ← (← cypher.Match [(pat n)]).Returning [(ex (← n.Project [(cont (← cypher.AnAsterisk))]))]
    let text0 ← built builder
    return [text0]) =
  some [c!"MATCH (n) RETURN n{.*}"] := by decide +kernel

end Verif
