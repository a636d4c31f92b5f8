import Verif.ApiLemmas4

/-
C40: everything that can be made has balanced texts.
-/

namespace Verif
open Spec

theorem propsNeat_create {d : Direction} {name : Option (Key × Str)} {ts : Option (Key × List Str)} {l : Option LengthV}
    {p : Option (Key × Val)} (hp : propsNeat p) : propsNeat (DetailsV.create d name ts l (.ok p)).props := hp

theorem api_neat {u : Unicode} {t : Thing} (h : Api u t) : NeatThing t := by
  induction h with
  | symbolicName => exact neat_symbolicName
  | propertyLookup => exact neat_propertyLookup
  | intLiteral => exact neat_int
  | stringLiteral => exact neat_string
  | boolLiteral => exact neat_bool
  | nilLiteral => exact neat_nil
  | asterisk => exact neat_asterisk
  | parameter k name h => exact neat_parameter h
  | listLiteral k xs h ih => exact neat_listLiteral ih
  | literalOf k o v h e ih => exact neat_literalOf (neat_obj ih) e
  | recv v w h e ih => exact neat_recv ih e
  | property k kl c name h ih => exact neat_property2 (optNeat_things ih)
  | as k d a h ih => exact neat_aliased (optNeat_things ih)
  | compare m k kl kr x y hx hy ihx ihy => exact neat_comparison (optNeat_things ihx) (optNeat_things ihy)
  | arith m k x y hx hy ihx ihy => exact neat_operation (optNeat_things ihx) (optNeat_things ihy)
  | operation k o x y hx hy ihx ihy => exact neat_operation (optNeat_things ihx) (optNeat_things ihy)
  | isNull k kn x h ih => exact neat_comparison1 (optNeat_things ih)
  | isNotNull k kn x h ih => exact neat_comparison1 (optNeat_things ih)
  | isTrue b kb k kl kr x h ih => exact neat_comparison (optNeat_things ih) (optNeat_some.2 neat_bool)
  | isEmpty kf ka kn k kl kr x v h e ih => exact neat_isEmpty (optNeat_things ih) e
  | matchesPattern ks k kl kr x p h ih => exact neat_comparison (optNeat_things ih) (optNeat_some.2 neat_string)
  | expressionList k xs h ih => exact neat_expressionList ih
  | listExpression k kl xs h ih => exact neat_listExpression ih
  | listOrSingle k kl xs h ih => exact neat_listOrSingle ih
  | mapOf k ks os v h e ih => exact neat_mapOf (fun o ho => neat_obj (ih o ho)) e
  | project k km ks name cs p hn hc e ihn ihc => exact neat_project ihn (fun c hc => neat_content (ihc c hc)) e
  | projectAnd p k km ks cs q hp hc e ihp ihc => exact neat_projectAnd ihp (fun c hc => neat_content (ihc c hc)) e
  | projection p h ih => exact ih.val
  | subList k kd x y z hx hy hz ihx ihy ihz => exact neat_subList (optNeat_things ihx) (optNeat_things ihy) (optNeat_things ihz)
  | subListFrom k kd x y hx hy ihx ihy => exact neat_subListFrom (optNeat_things ihx) (optNeat_things ihy)
  | subListUntil k kd x y hx hy ihx ihy => exact neat_subListUntil (optNeat_things ihx) (optNeat_things ihy)
  | valueAt k kd x y hx hy ihx ihy => exact neat_valueAt (optNeat_things ihx) (optNeat_things ihy)
  | caseSimple k x h ih => exact neat_caseSimple (optNeat_things ih)
  | caseStart k => exact neat_caseStart
  | whenThen c k kw w t d hc hw ht e ihc ihw iht => exact neat_whenThen ihc ihw iht e
  | elseDefault c ke d hc hd ihc ihd => exact neat_elseDefault ihc ihd
  | case c h ih => exact neat_case ih
  | fn1 f k ka x v h e ih => exact neat_fn1 (optNeat_things ih) e
  | coalesce k ka xs v h e ih => exact neat_function (by rfl) (fun x hx => optNeat_things (ih x hx)) e
  | distance k ka x y v hx hy e ihx ihy => exact neat_distance (optNeat_things ihx) (optNeat_things ihy) e
  | percentile disc distinct k ka kl x f v hx e ihx => exact neat_percentile (optNeat_things ihx) e
  | floatLiteral k f v e => exact neat_float e
  | range k ka x y z v hx hy hz e ihx ihy ihz => exact neat_range (optNeat_things ihx) (optNeat_things ihy) (optNeat_things ihz) e
  | fn0 f k ka v e => exact neat_fn0 e
  | fnNode f k ka n v h e ih => exact neat_fnNode e
  | fnRel f k ka r v h e ih => exact neat_fnRel e
  | collectNode d k ka n v h e ih => exact neat_collectNode e
  | fnPath nodes k ka name path v h e ih => exact neat_fnPath e
  | sizeByPattern k ka p h ih => exact neat_functionPattern (by rfl) (optNeat_things ih)
  | shortestPath k ka r h ih => exact neat_shortestPath ih
  | predicateExists k kf ka p v h e ih => exact neat_predicateExists ih e
  | predicateExistsByPattern k kf ka p h ih => exact neat_booleanFunction (neat_functionPattern (by rfl) (optNeat_some.2 ih))
  | quantified guid q k kf ka kp kw x list c v hg hx hl hc e ihx ihl ihc =>
    exact neat_quantified hg (optNeat_things ihx) (optNeat_things ihl) (optNeat_things ihc) e
  | listWith k kw kl kc x list c d hx hl _ hc hd _ ihx ihl ihc ihd => exact neat_listWith ihx ihl (optNeat_things ihc) ihd
  | listComprehensionWith guid k kw kl kc x list c d hg hx hl _ hc hd _ ihx ihl ihc ihd =>
    exact neat_listComprehensionWith hg ihx ihl (optNeat_things ihc) ihd
  | patternComprehension k kw kl kc p c d v hp _ hc hd _ e ihp ihc ihd => exact neat_patternComprehension ihp ihc ihd e
  | excludedPattern k p h ih => exact neat_excluded ih
  | patternCondition k p h ih => exact neat_patternCondition ih
  | constantCondition b => exact neat_constant
  | asCondition b k v h e ih => exact Base.Neat.asCondition ih e
  | atom v h ih => exact neat_atom ih
  | empty => rw [NeatThing, Cond.empty]; exact neat_compound condsNeat_nil condsNeat_nil
  | combine ks c h d hc hd ihc ihd => exact neat_combine ihc ihd
  | combinePattern ks c h x hc hx ihc ihx => exact neat_compoundCreate ihc (neat_atom ihx)
  | not k kn c h ih => exact neat_neg (k := k) (kn := kn) (c := c) ih
  | condRecv c d h e ih => exact neat_condRecv ih e
  | conditionsNot k kn c h ih => exact neat_conditionsNot ih
  | condition c h ih => exact neat_toVal c ih
  | anyNode => exact ⟨fun _ _ h => (by cases h), propsNeat_none⟩
  | nodeLabels l ls => exact ⟨fun _ _ h => (by cases h), propsNeat_none⟩
  | node k kl l => exact neat_node2
  | node3 k ks l ls => exact neat_node3
  | nodeProperties k kp ks l m ls h ih => exact neat_node1 (neat_propsOf ih)
  | nodeWithProperties n k kp m hn hm ihn ihm => exact neat_nodeWith ihn ihm
  | nodeWithRaw n k kp km ks os n' hn ho e ihn iho => exact neat_nodeRaw ihn (fun o h => neat_obj (iho o h)) e
  | nodeNamedByString n k name hs hn ih => exact neat_nodeNamedByString hs ih
  | nodeNamed n name hs hn ih => exact neat_nodeNamed hs ih
  | nodeName n h ih => exact neat_nodeName
  | nodeProperty n k kl name h ih => exact neat_nodeProperty
  | hasLabels n k ks ls h ih => exact neat_hasLabels
  | nodeVal n h ih => exact neat_plain (tidy_node ih)
  | rel k kd kt l d r ts hl hr ihl ihr => exact neat_rel ihl ihr
  | relNamed r k kn name h ih => exact neat_relNamed ih
  | relUnbounded r k kl h ih => exact neat_rel3 ih.left ih.right (propsNeat_create ih.props)
  | relMin r k kl i h ih => exact neat_rel3 ih.left ih.right (propsNeat_create ih.props)
  | relMax r k kl i h ih => exact neat_rel3 ih.left ih.right (propsNeat_create ih.props)
  | relLength r k kl kl' i j h ih => exact neat_rel3 ih.left ih.right (propsNeat_create (propsNeat_create ih.props))
  | relWithProperties r k kp m hr hm ihr ihm => exact neat_relWith ihr ihm
  | relWithRaw r k kp km ks os r' hr ho e ihr iho => exact neat_relRaw ihr (fun o h => neat_obj (iho o h)) e
  | relName r h ih => exact neat_relName
  | relVal r h ih => exact neat_plain (tidy_rel ih)
  | chainStart r k kd kt d n ts hr hn ihr ihn => exact neat_chainStart ihr ihn
  | chainExtend c k kd kt d n ts c' hc hn e ihc ihn => exact neat_chainExtend ihc ihn e
  | chainChange c f c' hc hf e ihc ihf => exact neat_chainChange ihc ihf e
  | chainLast c r h e ih => exact ih r (List.mem_of_getLast? e)
  | chainVal c h ih => exact neat_plain (tidy_chain ih)
  | aPath guid k kn name p hg h ih => exact neat_namedPath hg ih
  | aShortestPath k kn kf ka name r h ih => exact neat_aShortestPath ih
  | sortItem k x d h ih => exact neat_sort (optNeat_things ih)
  | ascending s k h ih => exact neat_sort ih
  | descending s h ih => exact ih
  | start => exact neat_baseZero
  | startCall kc ka kw k kn name b hn e =>
    obtain ⟨p, hp, rfl⟩ := Outcome.map_ok e
    exact neat_callNew (neat_procName hn hp)
  | startCallError => exact neat_callNew ⟨fun _ h => (by cases h), Balanced.nil⟩
  | call b c b' hb ht hn _ e ihb iht => exact exec_neat ihb iht hn e
  | asFunction c n k kl v h e ih => exact neat_asFunction ih e
  | build b s h e ih => exact build_neat ih e
  | union k ks all ss h ih => exact neat_union ih

end Verif
