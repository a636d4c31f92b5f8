{
 "C01": {
  "status": "proved",
  "note": "all strings, all following texts"
 },
 "C02": {
  "status": "proved",
  "note": "all strings"
 },
 "C03": {
  "status": "partial",
  "note": "false for names of only white space (C03_blank_name_not_readable); proved for all others"
 },
 "C04": {
  "status": "proved",
  "note": "all pairs of names"
 },
 "C05": {
  "status": "partial",
  "note": "all but the token claim proved for all strings; the token claim is false for names that are not identifiers (C05_parameter_not_escaped)"
 },
 "C06": {
  "status": "partial",
  "note": "false from 10^10 on (C06_int_literal_lossy); proved below; beyond, the literal is the closest ten-digit number (C06_closest)"
 },
 "C07": {
  "status": "proved",
  "note": "renderer state machine refines the compositional reading, for all trees and all histories"
 },
 "C08": {
  "status": "proved",
  "note": "for every list construct shown anywhere in a statement"
 },
 "C09": {
  "status": "partial",
  "note": "false with list-literal properties and names that need escapes (C12_*); proved otherwise"
 },
 "C10": {
  "status": "partial",
  "note": "false with list literals (C10_list_literal_leaks) and with two aliases of one expression (C11_two_aliases); proved otherwise"
 },
 "C11": {
  "status": "partial",
  "note": "false with two aliases of one expression and with aliases in abbreviated content; proved otherwise"
 },
 "C12": {
  "status": "partial",
  "note": "false: C12_list_property_leaks, C12_name_not_escaped; proved for names that need no escape and nodes without list literals"
 },
 "C13": {
  "status": "partial",
  "note": "false: C13_reuse_node, C13_reuse_alias; proved after any history for statements without names and aliases, and for statements with names and aliases of their own that share no named node and no aliased expression with the statements rendered before; exactly when: C88"
 },
 "C14": {
  "status": "proved",
  "note": "all statements, all renderer states"
 },
 "C15": {
  "status": "proved",
  "note": "all statements, all renderer states"
 },
 "C16": {
  "status": "partial",
  "note": "false when a combination is the argument of a call on a combination made with another operator (C16_misread); proved for all others, with unique reading and three-valued logic"
 },
 "C17": {
  "status": "proved",
  "note": "both sides, and combinations of only empty conditions"
 },
 "C18": {
  "status": "partial",
  "note": "false for a combination taken out by Get() (C18_stale); proved for Not() on every other combination"
 },
 "C19": {
  "status": "partial",
  "note": "false for a power whose exponent is a power (C19_power); proved for all others, with unique reading"
 },
 "C20": {
  "status": "proved",
  "note": "all comparing methods and IS NULL / IS NOT NULL; NOT is C18"
 },
 "C21": {
  "status": "partial",
  "note": "false: When after Else loses the Else (C21_else_lost), errors before the last call are lost (C21_error_lost), When with an error panics (C21_when_panics); proved for branches followed by defaults"
 },
 "C22": {
  "status": "proved",
  "note": "single access, ranges with either or both ends, and errors"
 },
 "C23": {
  "status": "partial",
  "note": "accepted argument lists characterised, text proved; false: values of unsupported types recurse for ever (C23_unsupported)"
 },
 "C24": {
  "status": "partial",
  "note": "text proved for all item lists and any number of And calls; duplicates detected within one call, not across calls nor for aliases (C24_duplicate_missed); errors of properties are lost (C24_error_lost)"
 },
 "C41": {
  "status": "partial",
  "note": "proved for all one-argument functions but CollectDistinct (C41_collectDistinct), and those with several arguments; the functions without arguments can not be called (C41_temporal)"
 },
 "C43": {
  "status": "partial",
  "note": "proved for usable operands and for operands with errors; false for an argument of a comparison with isNotNil() = false (C43_argument_dropped)"
 },
 "C44": {
  "status": "partial",
  "note": "text proved for parts without errors; false: errors of lists, conditions, definitions are lost (C44_quantified_error_lost, C44_condition_lost), missing variables are forgotten"
 },
 "C45": {
  "status": "partial",
  "note": "texts and errors proved; false: list literals can not be operands (C45_list_literal_operand), exists() loses the error of its property (C45_exists_error_lost); AsCondition drops what is before a WITH"
 },
 "C26": {
  "status": "partial",
  "note": "direction, both ends and errors proved for relationships between nodes without errors; the error of an end node is lost when the relationship is named (C26_error_lost)"
 },
 "C27": {
  "status": "partial",
  "note": "all lengths, if no node but the last relationship's end counts as nil; false otherwise (C27_last_node_lost, C27_error_lost)"
 },
 "C28": {
  "status": "proved",
  "note": "texts, reading back, the last call wins"
 },
 "C29": {
  "status": "partial",
  "note": "labels proved for every constructor but NewNodeWithLabels with several labels (C29_labels_lost); types proved for non-empty types; a list of empty types renders a bare colon (C29_empty_types)"
 },
 "C46": {
  "status": "partial",
  "note": "proved but for the empty name of APath, whose error is lost (C46_path_name_lost)"
 },
 "C25": {
  "status": "partial",
  "note": "proved for items, sort items and conditions without error and numbers below 10^10; errors of sort items and of WITH are lost, an empty WITH vanishes, LIMIT of large numbers is in exponent form; after Skip of a WITH nothing can be called"
 },
 "C35": {
  "status": "partial",
  "note": "proved for statements that are not unions and for extending a union; false for a union of the other kind at a later position and for an erroneous union in front (C35_nested_mixed, C35_erroneous_union_dropped)"
 },
 "C36": {
  "status": "partial",
  "note": "proved for single part queries, multi part queries and procedure calls; a union is always accepted (C36_union)"
 },
 "C37": {
  "status": "partial",
  "note": "pairs and built assignments proved apart; mixed, the built ones come first (C37_reordered), a computed value counts as built (C37_computed_value)"
 },
 "C38": {
  "status": "partial",
  "note": "one part proved; false for two or more: only the last is printed (C38_parts); none panics"
 },
 "C42": {
  "status": "proved",
  "note": "actions without errors, in order; the error of an assignment is lost (C42_error_lost)"
 },
 "C47": {
  "status": "partial",
  "note": "proved for every clause listed; the name given to UNWIND is not escaped (C47_unwind_unescaped)"
 },
 "C30": {
  "status": "partial",
  "note": "proved for every sequence of clauses without errors except the gaps; C30_only_gaps: the interfaces allow nothing else; false in the gaps (C30_call_where_unwind, C30_call_where_set, C30_merge_remove); C30_programs_partial, C30_call_programs_partial: for chains of calls that are admitted, instead of queries"
 },
 "C31": {
  "status": "partial",
  "note": "proved for MATCH, WITH and procedure calls in every query of C30; false after a subquery call (C31_subquery_where_lost), and And/Or after Where of a procedure call panic or go elsewhere"
 },
 "C32": {
  "status": "partial",
  "note": "proved for one pattern; false for every longer list (C32_only_first), and an empty list makes the clause vanish (C32_none)"
 },
 "C33": {
  "status": "partial",
  "note": "proved after CREATE, MERGE, DELETE; false after SET and REMOVE (C33_distinct_dropped)"
 },
 "C34": {
  "status": "partial",
  "note": "proved for all call sequences and all calls that are checked (BadCall and not Unchecked); each unchecked kind has a counterexample (C34_lost_*)"
 },
 "C39": {
  "status": "partial",
  "note": "False in general: after x := a.And(b).And(c), the conditions x.And(d) and x.And(e) share an array and both become (a AND b AND c AND e); x.Or(x.And(d)) is a condition that contains itself; methods that change the last relationship of a chain change the chain they are called on; after a := Match x 4, the statement of a.Where(b).Match(q) gets the condition of a later a.Where(c).Match(q); with three branches in c, c.When(d).Then(1) becomes c.When(e).Then(2) once that is made, and o.Then(1), o.Then(2) give a case with both branches; a second As, a second Build of an update, a second Set of a merge action add to the first; a statement that was built gets the WITH or the sort item of a later one. Proved, with slices, backing arrays and pointers modelled, for any growth of capacities: programs that use every condition (chain, CASE) as receiver at most once see value semantics; builders that are forked depth first do (except updates, UNWIND, merge actions); statements that are looked at later, and builders in variables used in any order, do when builders that are used again share nothing. Missing: the other programs, where it is false."
 },
 "C40": {
  "status": "partial",
  "note": "Proved for every statement that can be made with the modelled constructors, methods and builder calls (inductive predicate Api), for all labels, property keys, string contents, relationship types, symbolic names and aliases, for a new renderer and for one that has rendered other such statements. Names that the code prints unescaped (repeated nodes, parameters, procedures, UNWIND ... AS) are asked to be balanced and free of comments and semicolons themselves; the claim is false without that (C40_node_name, C40_parameter, C40_procedure, C40_comment, C40_unwind)."
 },
 "C48": {
  "status": "partial",
  "note": "proved for numbers below 10^10, all strings and all time zones; larger numbers lose digits (C48_large_number)"
 },
 "C49": {
  "status": "partial",
  "note": "lists proved completely; sort items are string constants (C49_sort_by_text), a text without a space panics (C49_sort_panics)"
 },
 "C50": {
  "status": "partial",
  "note": "proved; integer arguments of list access and range only below 10^10, as in C06; a nameless node in InternalId and Labels is treated in C41"
 },
 "C51": {
  "status": "partial",
  "note": "the literal is the closest number with ten significant digits, exact precisely for numbers that have at most ten; the full claim is false (C51_lossy, C51_whole_number, C51_no_number, C51_percentile_nan)"
 },
 "C52": {
  "status": "partial",
  "note": "proved for all the listed constructs with the restrictions recorded in the rules of Denotes; without them it is false (C52_condition_operand, C52_power_operand, C52_power_access, C52_power_test, C52_membership_list, C52_keyword_names). Includes patterns as conditions and arguments, pattern comprehensions and EXISTS, at any point of a statement (C52_reads_inside_partial). Label tests as operands of comparisons are left out."
 },
 "C53": {
  "status": "partial",
  "note": "proved for all nodes, relationships, chains, named and shortest paths with the restrictions recorded in the rules of NodeMeans and ElementMeans; without the restriction on names of nodes shown again it is false (C53_known_node_misread). Property values may be any expressions of C52 that describe no further named nodes."
 },
 "C54": {
  "status": "partial",
  "note": "proved for all sequences of clauses that Query.Ok allows, including subqueries and unions of any depth, and aliases; false beyond (C30, C31, C33, C37, C54_unwind_injected). Expressions are those of C52, including patterns, which may describe nodes for the rest of the statement."
 },
 "C55": {
  "status": "partial",
  "note": "proved for all statements when different addresses stay different; false when an address comes back after a garbage collection, which nothing prevents"
 },
 "C56": {
  "status": "partial",
  "note": "proved for all statements in which one key belongs to one object; false for And/Or/Xor on a combination and for ElseDefault, which keep the key of the receiver"
 },
 "C57": {
  "status": "proved",
  "note": "equivalence, for all strings and all following texts"
 },
 "C58": {
  "status": "proved",
  "note": "equivalence, for all strings and all following texts"
 },
 "C59": {
  "status": "proved",
  "note": "equivalences, for all integers"
 },
 "C60": {
  "status": "proved",
  "note": "equivalence, for all expressions whose operands have no errors"
 },
 "C61": {
  "status": "proved",
  "note": "equivalence, for all combinations of usable conditions that are not empty; C61_faithful: the class of C16 is inside"
 },
 "C62": {
  "status": "proved",
  "note": "every sequence of calls; complete description of panics, errors and text"
 },
 "C63": {
  "status": "proved",
  "note": "all chains that type-check; the provisos are shown to be needed by chains that compile and panic or give an error"
 },
 "C64": {
  "status": "proved",
  "note": "complete description, also of the sequences excluded from C30 and C33; the order is preserved exactly in the cases stated; C64_programs, C64_call_programs: for chains of calls instead of queries, by parsing them"
 },
 "C65": {
  "status": "proved",
  "note": "complete description, also of the mixtures excluded from C37"
 },
 "C66": {
  "status": "partial",
  "note": "proved for the first three; OperationCreate1 refuses every operand, operator and label that is there (C66_operation_refused) and accepts only missing ones"
 },
 "C67": {
  "status": "proved",
  "note": "proved as an equivalence; erroneous arguments of a procedure call that the query begins with are left out (C34_standalone_arguments_lost shows what happens to them)"
 },
 "C68": {
  "status": "proved",
  "note": "proved as an equivalence and an equation for all nestings; statements given are not nil"
 },
 "C69": {
  "status": "partial",
  "note": "false: in the second query of a union, in subqueries and after WITH the labels and properties of a node are lost and aliases are used undefined (C69_union_label_lost, C69_union_alias_undefined, C69_subquery_label_lost, C69_with_label_lost, C69_with_alias_undefined); an alias is used within the list that defines it (C69_same_clause), even if the program uses no expression twice (C69_shared_true: LiteralTrue() is one object); proved if the parts have no named node and no aliased expression in common; exactly when: C88"
 },
 "C70": {
  "status": "proved",
  "note": "proved for the renderer's output before the final TrimSpace (C14); for the machine itself, without assumptions on keys"
 },
 "C71": {
  "status": "partial",
  "note": "partial: false of the code for arguments of procedure calls and for Delete after SET or REMOVE, whose errors a later one hides; and instead of an error there is a nil pointer if a WITH, UNWIND or procedure call follows, or an updating clause follows a failed second SET or REMOVE (negations shown); C71_first_partial says exactly when"
 },
 "C72": {
  "status": "partial",
  "note": "partial: holds for operators, comparisons, list access, aliases, properties, patterns in functions, distance, percentiles, quantifiers, subqueries and unions; false for lists, function arguments, DELETE, SET, WITH, the first pattern of CREATE and MERGE (panic), for RETURN, MATCH, UNWIND, ORDER BY and procedure arguments (panic when rendered), for later patterns of CREATE and MERGE, Where(nil) and And(nil) (statement without them): exact statements for all of these"
 },
 "C73": {
  "status": "proved",
  "note": "exact for all sequences of calls; texts of names and types are asked to be readable (not blank, C03; some type not empty, C29)"
 },
 "C74": {
  "status": "proved",
  "note": "exact for all ordering calls that the interfaces allow"
 },
 "C75": {
  "status": "proved",
  "note": "exact; C75_lost: after an updating clause errors are printed or make Render panic"
 },
 "C76": {
  "status": "proved",
  "note": "exact; Go's growth of slices as it is up to 512 conditions"
 },
 "C77": {
  "status": "proved",
  "note": "exact, for any growth of capacity (for `Relationship` values Go's growth depends on the size of the struct); C77_texts: a witness in text"
 },
 "C78": {
  "status": "proved",
  "note": "exact, for any growth of capacity; C78_texts: a witness in text"
 },
 "C79": {
  "status": "proved",
  "note": "exact; C79_entries_error_lost, C79_entries_twice: what a user would not expect of AddEntries"
 },
 "C80": {
  "status": "proved",
  "note": "exact companion of the C39 theorems for builders: C80_uses for all programs, C80_sets, C80_unwinds, C80_actions in terms of programs that use no builder twice"
 },
 "C81": {
  "status": "proved",
  "note": "C81_words with C70_texts; C81_string, C81_label, C81_types: filling a place is building the part with the contents put in. Names that are printed without escapes are the subject of C05, C12, C40 and C54"
 },
 "C82": {
  "status": "proved",
  "note": "exact companion of C39_builders_clauses; C82_uses with C82_then: what any program sees of any of the continuations; C82_full, C82_one, C82_room: when they are independent"
 },
 "C83": {
  "status": "proved",
  "note": "C83_apart, C83_new, C83_in_turn: for all schedules; C83_one_renderer: two overlapping calls on one renderer spoil each other. Steps are single calls of enter, leave and append, in some order (sequential consistency); Go's own check for concurrent map writes is not modelled. That rendering writes to nothing but the renderer was checked by reading every accept, enter and leave method"
 },
 "C84": {
  "status": "proved",
  "note": "C84_composed, C84_sequence; C84_shared: the text is spoilt if a condition made by And contains its receiver with an alias. C40_objects_partial: brackets under the same hypothesis"
 },
 "C85": {
  "status": "proved",
  "note": "C85_string, C85_quoted, C85_names, C85_invalid, C85_agree, C85_parameters, C85_faithful. C85_names and C85_invalid assume that U+FFFD is no letter, digit or white space, as in Go's tables; C85_render, C85_filled: whole statements as bytes, with C70"
 },
 "C86": {
  "status": "proved",
  "note": "C86_words with C70_texts; C86_all: together with C81; C86_variable, C86_alias, C86_property, C86_entry, C86_parameter, C86_node: filling a place is building the part with the name put in"
 },
 "C87": {
  "status": "proved",
  "note": "C87_shown, C87_text, C87_quote, C87_made: all literals; C87_reads, C87_same_text: data with numbers of at most ten significant digits, see C87_number_collision and C87_raw for what is outside"
 },
 "C88": {
  "status": "proved",
  "note": "C88_display: if and only if, for any memory; C88_memory: what is remembered, in terms of what was shown; C88_parts, C88_parts_text, C88_render; C88_first_difference.  The text is the same if no alias is itself an aliased expression"
 },
 "C89": {
  "status": "proved",
  "note": "C89_follow: if and only if, against a table that knows no interfaces; C89_begin; C89_admits: chains as a whole, if and only if; C89_return_last; C89_build: if and only if.  AsCondition, AsFunction and GetErr are left out"
 }
}
