import Verif.Replay

/-
The tests of the package that compare an error, that call an unexported function or that loop over a list of inputs, translated by hand.
TestWithCountFunction (test_cypher/cypher_test.go) is empty and TestEqualWithStringLiteralAAA (comparison_rendering_test.go) compares
nothing.
-/

namespace Verif

/-! ### string_literal_test.go -/

/-- TestShouldEscapeContent -/
example : stringLiteralText c!"A\\B\\\\Ca'bc123\\" = c!"'A\\\\B\\\\\\\\Ca\\'bc123\\\\'" := by decide +kernel

/-- TestShouldEscapeEmptyString -/
example : [c!"", c!" \t ", c!"Nothing to escape", c!"' \" '"].map escapeStringLiteral =
    [c!"", c!" \t ", c!"Nothing to escape", c!"\\' \\\" \\'"] := by decide +kernel

/-! ### test_cypher/cypher_test.go -/

/-- TestEscapeIfNecessary -/
example : [c!" ", c!"a", c!"ALabel", c!"A Label", c!"`A `Label", c!"Spring Data Neo4j⚡️RX"].map (escapeIfNecessary uc) =
    [c!" ", c!"a", c!"ALabel", c!"`A Label`", c!"```A ``Label`", c!"`Spring Data Neo4j⚡️RX`"] := by decide +kernel

/-! ### test_cypher/cypherit/list_literal_test.go -/

/-- TestListLiteralErrorInBuilderShouldWork; `Err.other` stands for the error of the user. -/
example : outcome (do (← cypher.CypherReturning [.bad (.other 1)]).BuildError) = some (.other 1) := by decide +kernel

/-! ### test_cypher/cypherit/map_projection_on_relationship_test.go -/

/-- TestProjectInvalid; map_projection.go:161 is where the error that the test expects is created. -/
example : outcome (do
    let n ← cypher.AnyNodeNamed c!"n"
    let p ← n.Project [cont (← cypher.IdByNode n)]
    let q ← n.Project [.str c!"a", cont (← cypher.MapOf [.str c!"a", obj (← cypher.LiteralOf (.str c!"b"))]), cont (← cypher.IdByNode n)]
    return [p.val.err, q.val.err]) =
  some [some (.site "map_projection.go" 161), some (.site "map_projection.go" 161)] := by decide +kernel

/-! ### test_cypher/cypherit/property_rendering_test.go -/

/-- TestShouldRenderNodeProperties -/
example : printed (do
    let n1 ← (← cypher.NewNodeWithProperties c!"Test" (← cypher.MapOf [.str c!"a", obj (← cypher.LiteralOf (.str c!"b"))]) []).NamedByString c!"test"
    let n2 ← (← (← cypher.ANode c!"Test").NamedByString c!"test").WithProperties (← cypher.MapOf [.str c!"a", obj (← cypher.LiteralOf (.str c!"b"))])
    let n3 ← (← (← cypher.ANode c!"Test").NamedByString c!"test").WithRawProperties [.str c!"a", obj (← cypher.LiteralOf (.str c!"b"))]
    [n1, n2, n3].flatMapM fun n => do
      let text0 ← built (← (← cypher.Match [pat n]).Returning [ex (← cypher.AnAsterisk)])
      let text1 ← built (← (← cypher.Merge [pat n]).Returning [ex (← cypher.AnAsterisk)])
      return [text0, text1]) =
  some ((List.replicate 3 [c!"MATCH (test:`Test` {a: 'b'}) RETURN *", c!"MERGE (test:`Test` {a: 'b'}) RETURN *"]).flatten) := by
  decide +kernel

/-! ### test_cypher/cypherit/set_clause_test.go -/

/-- TestShouldRenderSetFromAListOfExpression, the texts -/
example : printed (do
    let userNode ← userNodeM
    let text0 ← built (← (← cypher.Match [pat userNode]).Set [ex (← userNode.Property c!"p"), ex (← cypher.LiteralOf (.str c!"Hallo, Welt"))])
    let text1 ← built (← (← cypher.Match [pat userNode]).Set [ex (← userNode.Property c!"p"), ex (← cypher.LiteralOf (.str c!"Hallo")),
      ex (← userNode.Property c!"g"), ex (← cypher.LiteralOf (.str c!"Welt"))])
    let text2 ← built (← (← (← cypher.Match [pat userNode]).Set [ex (← userNode.Property c!"p"), ex (← cypher.LiteralOf (.str c!"Hallo, Welt"))]).Set
      [ex (← userNode.Property c!"p"), ex (← cypher.LiteralOf (.str c!"Hallo")), ex (← userNode.Property c!"g"), ex (← cypher.LiteralOf (.str c!"Welt"))])
    return [text0, text1, text2]) =
  some [c!"MATCH (u:`User`) SET u.p = 'Hallo, Welt'", c!"MATCH (u:`User`) SET u.p = 'Hallo', u.g = 'Welt'",
    c!"MATCH (u:`User`) SET u.p = 'Hallo, Welt' SET u.p = 'Hallo', u.g = 'Welt'"] := by decide +kernel

/-- TestShouldRenderSetFromAListOfExpression, the error; default_statement_builder.go:667 is where it is created. -/
example : outcome (do
    let userNode ← userNodeM
    (← (← cypher.Match [pat userNode]).Set [ex (← userNode.Property c!"p")]).BuildError) =
  some (.site "default_statement_builder.go" 667) := by decide +kernel

/-! ### test_cypher/cypherit/union_test.go -/

/-- TestShouldNotMix; cypher.go:577 is where the error is created. -/
example : outcome (do
    let bikeNode ← bikeNodeM
    let one (p v : Str) : M Stmt := do
      (← (← (← cypher.Match [pat bikeNode]).WhereConditionContainer
        (← (← bikeNode.Property p).IsEqualTo (ex (← cypher.LiteralOf (.str v))))).ReturningByNamed [nm bikeNode]).Build
    let statement1 ← one c!"a" c!"A"
    let statement2 ← one c!"b" c!"B"
    let statement ← cypher.UnionAll [statement1, statement2]
    let statement3 ← one c!"c" c!"C"
    let statement ← cypher.Union [statement, statement3]
    return (render uc RState.new (some ⟨statement.err, statement.visit⟩)).1) =
  some (.error (.site "cypher.go" 577)) := by decide +kernel

end Verif
