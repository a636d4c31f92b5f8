{
 "claims": [
  {
   "property": "C01",
   "status": "proved",
   "theorems": [
    "Verif.C01_string_round_trip",
    "Verif.C01_string_injective"
   ],
   "note": "all strings, all following texts"
  },
  {
   "property": "C02",
   "status": "proved",
   "theorems": [
    "Verif.C02_quoted_round_trip"
   ],
   "note": "all strings"
  },
  {
   "property": "C03",
   "status": "partial",
   "theorems": [
    "Verif.C03_name_round_trip_partial",
    "Verif.C03_blank_name_not_readable"
   ],
   "note": "false for names of only white space (C03_blank_name_not_readable); proved for all others"
  },
  {
   "property": "C04",
   "status": "proved",
   "theorems": [
    "Verif.C04_escapeName_injective",
    "Verif.C04_escapeIfNecessary_injective"
   ],
   "note": "all pairs of names"
  },
  {
   "property": "C05",
   "status": "partial",
   "theorems": [
    "Verif.C05_parameter_name",
    "Verif.C05_parameter_dollars",
    "Verif.C05_parameter_token_partial",
    "Verif.C05_parameter_not_escaped"
   ],
   "note": "all but the token claim proved for all strings; the token claim is false for names that are not identifiers (C05_parameter_not_escaped)"
  },
  {
   "property": "C06",
   "status": "partial",
   "theorems": [
    "Verif.C06_closest",
    "Verif.C06_ties",
    "Verif.C06_int_literal_partial",
    "Verif.C06_int_literal_lossy"
   ],
   "note": "false from 10^10 on (C06_int_literal_lossy); proved below; beyond, the literal is the closest ten-digit number (C06_closest)"
  },
  {
   "property": "C07",
   "status": "proved",
   "theorems": [
    "Verif.C07_compositional",
    "Verif.C07_compositional_history",
    "Verif.C07_plain"
   ],
   "note": "renderer state machine refines the compositional reading, for all trees and all histories"
  },
  {
   "property": "C08",
   "status": "proved",
   "theorems": [
    "Verif.C08_lists"
   ],
   "note": "for every list construct shown anywhere in a statement"
  },
  {
   "property": "C09",
   "status": "partial",
   "theorems": [
    "Verif.C09_named_node_partial"
   ],
   "note": "false with list-literal properties and names that need escapes (C12_*); proved otherwise"
  },
  {
   "property": "C10",
   "status": "partial",
   "theorems": [
    "Verif.C10_as_accepted",
    "Verif.C10_as_text",
    "Verif.C10_alias_partial",
    "Verif.C10_alias_first_partial",
    "Verif.C10_alias_definition",
    "Verif.C10_list_literal_leaks"
   ],
   "note": "false with list literals (C10_list_literal_leaks) and with two aliases of one expression (C11_two_aliases); proved otherwise"
  },
  {
   "property": "C11",
   "status": "partial",
   "theorems": [
    "Verif.C11_hidden_alias",
    "Verif.C11_alias_defined_partial",
    "Verif.C11_two_aliases"
   ],
   "note": "false with two aliases of one expression and with aliases in abbreviated content; proved otherwise"
  },
  {
   "property": "C12",
   "status": "partial",
   "theorems": [
    "Verif.C12_list_property_leaks",
    "Verif.C12_name_not_escaped",
    "Verif.C12_repeated_node_partial"
   ],
   "note": "false: C12_list_property_leaks, C12_name_not_escaped; proved for names that need no escape and nodes without list literals"
  },
  {
   "property": "C13",
   "status": "partial",
   "theorems": [
    "Verif.C13_reuse_partial",
    "Verif.C13_reuse_node",
    "Verif.C13_reuse_alias",
    "Verif.C13_disjoint_partial"
   ],
   "note": "false: C13_reuse_node, C13_reuse_alias; proved after any history for statements without names and aliases, and for statements with names and aliases of their own that share no named node and no aliased expression with the statements rendered before; exactly when: C88"
  },
  {
   "property": "C14",
   "status": "proved",
   "theorems": [
    "Verif.C14_trimmed"
   ],
   "note": "all statements, all renderer states"
  },
  {
   "property": "C15",
   "status": "proved",
   "theorems": [
    "Verif.C15_nil",
    "Verif.C15_error",
    "Verif.C15_error_no_effect"
   ],
   "note": "all statements, all renderer states"
  },
  {
   "property": "C16",
   "status": "partial",
   "theorems": [
    "Verif.C16_combination_partial",
    "Verif.C16_misread",
    "Verif.C16_unambiguous"
   ],
   "note": "false when a combination is the argument of a call on a combination made with another operator (C16_misread); proved for all others, with unique reading and three-valued logic"
  },
  {
   "property": "C17",
   "status": "proved",
   "theorems": [
    "Verif.C17_empty_receiver",
    "Verif.C17_empty_argument",
    "Verif.C17_vacuous"
   ],
   "note": "both sides, and combinations of only empty conditions"
  },
  {
   "property": "C18",
   "status": "partial",
   "theorems": [
    "Verif.C18_not_partial",
    "Verif.C18_reads_negation",
    "Verif.C18_not_of_get_partial",
    "Verif.C18_stale"
   ],
   "note": "false for a combination taken out by Get() (C18_stale); proved for Not() on every other combination"
  },
  {
   "property": "C19",
   "status": "partial",
   "theorems": [
    "Verif.C19_arithmetic_partial",
    "Verif.C19_power",
    "Verif.C19_unambiguous"
   ],
   "note": "false for a power whose exponent is a power (C19_power); proved for all others, with unique reading"
  },
  {
   "property": "C20",
   "status": "proved",
   "theorems": [
    "Verif.C20_compare",
    "Verif.C20_nested",
    "Verif.C20_nested_null",
    "Verif.C20_null"
   ],
   "note": "all comparing methods and IS NULL / IS NOT NULL; NOT is C18"
  },
  {
   "property": "C21",
   "status": "partial",
   "theorems": [
    "Verif.C21_case_partial",
    "Verif.C21_else_lost",
    "Verif.C21_error",
    "Verif.C21_error_lost",
    "Verif.C21_when_panics"
   ],
   "note": "false: When after Else loses the Else (C21_else_lost), errors before the last call are lost (C21_error_lost), When with an error panics (C21_when_panics); proved for branches followed by defaults"
  },
  {
   "property": "C22",
   "status": "proved",
   "theorems": [
    "Verif.C22_access",
    "Verif.C22_errors"
   ],
   "note": "single access, ranges with either or both ends, and errors"
  },
  {
   "property": "C23",
   "status": "partial",
   "theorems": [
    "Verif.C23_accepted",
    "Verif.C23_text",
    "Verif.C23_unsupported"
   ],
   "note": "accepted argument lists characterised, text proved; false: values of unsupported types recurse for ever (C23_unsupported)"
  },
  {
   "property": "C24",
   "status": "partial",
   "theorems": [
    "Verif.C24_text",
    "Verif.C24_duplicate_partial",
    "Verif.C24_duplicate_missed",
    "Verif.C24_error_lost",
    "Verif.C24_lookup_alone",
    "Verif.C24_junk"
   ],
   "note": "text proved for all item lists and any number of And calls; duplicates detected within one call, not across calls nor for aliases (C24_duplicate_missed); errors of properties are lost (C24_error_lost)"
  },
  {
   "property": "C25",
   "status": "partial",
   "theorems": [
    "Verif.C25_with_skip",
    "Verif.C25_return",
    "Verif.C25_with",
    "Verif.C25_limit_zero",
    "Verif.C25_limit_large",
    "Verif.C25_sort_error_lost",
    "Verif.C25_sort_direction_error_lost",
    "Verif.C25_with_error_lost",
    "Verif.C25_with_where_error_lost",
    "Verif.C25_empty_with"
   ],
   "note": "proved for items, sort items and conditions without error and numbers below 10^10; errors of sort items and of WITH are lost, an empty WITH vanishes, LIMIT of large numbers is in exponent form; after Skip of a WITH nothing can be called"
  },
  {
   "property": "C26",
   "status": "partial",
   "theorems": [
    "Verif.C26_relationship",
    "Verif.C26_direction",
    "Verif.C26_error",
    "Verif.C26_error_lost"
   ],
   "note": "direction, both ends and errors proved for relationships between nodes without errors; the error of an end node is lost when the relationship is named (C26_error_lost)"
  },
  {
   "property": "C27",
   "status": "partial",
   "theorems": [
    "Verif.C27_chain_partial",
    "Verif.C27_last_node_lost",
    "Verif.C27_error_lost",
    "Verif.C27_empty"
   ],
   "note": "all lengths, if no node but the last relationship's end counts as nil; false otherwise (C27_last_node_lost, C27_error_lost)"
  },
  {
   "property": "C28",
   "status": "proved",
   "theorems": [
    "Verif.C28_length_text",
    "Verif.C28_length",
    "Verif.C28_last"
   ],
   "note": "texts, reading back, the last call wins"
  },
  {
   "property": "C29",
   "status": "partial",
   "theorems": [
    "Verif.C29_node",
    "Verif.C29_labels_lost",
    "Verif.C29_renamed_labels_lost",
    "Verif.C29_empty_label",
    "Verif.C29_node_errors_lost",
    "Verif.C29_types_partial",
    "Verif.C29_empty_types"
   ],
   "note": "labels proved for every constructor but NewNodeWithLabels with several labels (C29_labels_lost); types proved for non-empty types; a list of empty types renders a bare colon (C29_empty_types)"
  },
  {
   "property": "C30",
   "status": "partial",
   "theorems": [
    "Verif.C30_statement_partial",
    "Verif.C30_only_gaps",
    "Verif.C30_call_where_unwind",
    "Verif.C30_call_where_set",
    "Verif.C30_merge_remove",
    "Verif.C30_programs_partial",
    "Verif.C30_call_programs_partial"
   ],
   "note": "proved for every sequence of clauses without errors except the gaps; C30_only_gaps: the interfaces allow nothing else; false in the gaps (C30_call_where_unwind, C30_call_where_set, C30_merge_remove); C30_programs_partial, C30_call_programs_partial: for chains of calls that are admitted, instead of queries"
  },
  {
   "property": "C31",
   "status": "partial",
   "theorems": [
    "Verif.C31_match_partial",
    "Verif.C31_with_partial",
    "Verif.C31_call_partial",
    "Verif.C31_subquery_where_lost",
    "Verif.C31_call_and_panics",
    "Verif.C31_call_and_elsewhere",
    "Verif.C31_with_and_panics"
   ],
   "note": "proved for MATCH, WITH and procedure calls in every query of C30; false after a subquery call (C31_subquery_where_lost), and And/Or after Where of a procedure call panic or go elsewhere"
  },
  {
   "property": "C32",
   "status": "partial",
   "theorems": [
    "Verif.C32_only_first",
    "Verif.C32_one_partial",
    "Verif.C32_none"
   ],
   "note": "proved for one pattern; false for every longer list (C32_only_first), and an empty list makes the clause vanish (C32_none)"
  },
  {
   "property": "C33",
   "status": "partial",
   "theorems": [
    "Verif.C33_distinct_dropped",
    "Verif.C33_distinct_partial"
   ],
   "note": "proved after CREATE, MERGE, DELETE; false after SET and REMOVE (C33_distinct_dropped)"
  },
  {
   "property": "C34",
   "status": "partial",
   "theorems": [
    "Verif.C34_errors_partial",
    "Verif.C34_arguments",
    "Verif.C34_lost_conditions",
    "Verif.C34_lost_items",
    "Verif.C34_lost_named",
    "Verif.C34_standalone_arguments_lost",
    "Verif.C34_unnamed_call_lost",
    "Verif.C34_empty_with",
    "Verif.C34_multipart_panics"
   ],
   "note": "proved for all call sequences and all calls that are checked (BadCall and not Unchecked); each unchecked kind has a counterexample (C34_lost_*)"
  },
  {
   "property": "C35",
   "status": "partial",
   "theorems": [
    "Verif.C35_union",
    "Verif.C35_extend",
    "Verif.C35_few",
    "Verif.C35_mixed",
    "Verif.C35_errors_partial",
    "Verif.C35_nested_mixed",
    "Verif.C35_erroneous_union_dropped"
   ],
   "note": "proved for statements that are not unions and for extending a union; false for a union of the other kind at a later position and for an erroneous union in front (C35_nested_mixed, C35_erroneous_union_dropped)"
  },
  {
   "property": "C36",
   "status": "partial",
   "theorems": [
    "Verif.C36_single",
    "Verif.C36_multi",
    "Verif.C36_call",
    "Verif.C36_layout",
    "Verif.C36_union"
   ],
   "note": "proved for single part queries, multi part queries and procedure calls; a union is always accepted (C36_union)"
  },
  {
   "property": "C37",
   "status": "partial",
   "theorems": [
    "Verif.C37_set_partial",
    "Verif.C37_pairs",
    "Verif.C37_built",
    "Verif.C37_odd",
    "Verif.C37_reordered",
    "Verif.C37_computed_value",
    "Verif.C37_computed_values"
   ],
   "note": "pairs and built assignments proved apart; mixed, the built ones come first (C37_reordered), a computed value counts as built (C37_computed_value)"
  },
  {
   "property": "C38",
   "status": "partial",
   "theorems": [
    "Verif.C38_one_part_partial",
    "Verif.C38_parts",
    "Verif.C38_namespace_lost",
    "Verif.C38_no_part",
    "Verif.C38_simple",
    "Verif.C38_simple_parts",
    "Verif.C38_as_function",
    "Verif.C38_empty_name"
   ],
   "note": "one part proved; false for two or more: only the last is printed (C38_parts); none panics"
  },
  {
   "property": "C39",
   "status": "partial",
   "theorems": [
    "Verif.C39_builders_partial",
    "Verif.C39_builders_call_partial",
    "Verif.C39_builders_late_partial",
    "Verif.C39_builders_variables_partial",
    "Verif.C39_builders_clauses",
    "Verif.C39_builders_late",
    "Verif.C39_builders_late_order",
    "Verif.C39_builders_unwind",
    "Verif.C39_builders_update",
    "Verif.C39_builders_merge",
    "Verif.C39_case_partial",
    "Verif.C39_case_overwritten",
    "Verif.C39_case_then_twice",
    "Verif.C39_case_error_stays",
    "Verif.C39_conditions_partial",
    "Verif.C39_conditions_overwritten",
    "Verif.C39_conditions_cycle",
    "Verif.C39_chains_partial",
    "Verif.C39_chains_receiver_changed",
    "Verif.C39_chains_shared"
   ],
   "note": "False in general: after x := a.And(b).And(c), the conditions x.And(d) and x.And(e) share an array and both become (a AND b AND c AND e); x.Or(x.And(d)) is a condition that contains itself; methods that change the last relationship of a chain change the chain they are called on; after a := Match x 4, the statement of a.Where(b).Match(q) gets the condition of a later a.Where(c).Match(q); with three branches in c, c.When(d).Then(1) becomes c.When(e).Then(2) once that is made, and o.Then(1), o.Then(2) give a case with both branches; a second As, a second Build of an update, a second Set of a merge action add to the first; a statement that was built gets the WITH or the sort item of a later one. Proved, with slices, backing arrays and pointers modelled, for any growth of capacities: programs that use every condition (chain, CASE) as receiver at most once see value semantics; builders that are forked depth first do (except updates, UNWIND, merge actions); statements that are looked at later, and builders in variables used in any order, do when builders that are used again share nothing. Missing: the other programs, where it is false."
  },
  {
   "property": "C40",
   "status": "partial",
   "theorems": [
    "Verif.C40_brackets_partial",
    "Verif.C40_one_partial",
    "Verif.C40_node_name",
    "Verif.C40_parameter",
    "Verif.C40_procedure",
    "Verif.C40_comment",
    "Verif.C40_unwind",
    "Verif.C40_objects_partial"
   ],
   "note": "Proved for every statement that can be made with the modelled constructors, methods and builder calls (inductive predicate Api), for all labels, property keys, string contents, relationship types, symbolic names and aliases, for a new renderer and for one that has rendered other such statements. Names that the code prints unescaped (repeated nodes, parameters, procedures, UNWIND ... AS) are asked to be balanced and free of comments and semicolons themselves; the claim is false without that (C40_node_name, C40_parameter, C40_procedure, C40_comment, C40_unwind)."
  },
  {
   "property": "C41",
   "status": "partial",
   "theorems": [
    "Verif.C41_function_partial",
    "Verif.C41_collectDistinct",
    "Verif.C41_temporal",
    "Verif.C41_errors",
    "Verif.C41_several",
    "Verif.C41_node_partial",
    "Verif.C41_node_not_nil",
    "Verif.C41_node_error",
    "Verif.C41_relationship",
    "Verif.C41_relationship_error",
    "Verif.C41_path",
    "Verif.C41_pattern",
    "Verif.C41_shortestPath"
   ],
   "note": "proved for all one-argument functions but CollectDistinct (C41_collectDistinct), and those with several arguments; the functions without arguments can not be called (C41_temporal)"
  },
  {
   "property": "C42",
   "status": "proved",
   "theorems": [
    "Verif.C42_merge",
    "Verif.C42_error_lost"
   ],
   "note": "actions without errors, in order; the error of an assignment is lost (C42_error_lost)"
  },
  {
   "property": "C43",
   "status": "partial",
   "theorems": [
    "Verif.C43_arith",
    "Verif.C43_compare",
    "Verif.C43_errors",
    "Verif.C43_argument_dropped",
    "Verif.C43_isEmpty",
    "Verif.C43_isTrue",
    "Verif.C43_matchesPattern"
   ],
   "note": "proved for usable operands and for operands with errors; false for an argument of a comparison with isNotNil() = false (C43_argument_dropped)"
  },
  {
   "property": "C44",
   "status": "partial",
   "theorems": [
    "Verif.C44_quantified_partial",
    "Verif.C44_quantified_error_lost",
    "Verif.C44_quantified_no_variable",
    "Verif.C44_quantified_missing",
    "Verif.C44_listWith_partial",
    "Verif.C44_condition_lost",
    "Verif.C44_pattern_partial"
   ],
   "note": "text proved for parts without errors; false: errors of lists, conditions, definitions are lost (C44_quantified_error_lost, C44_condition_lost), missing variables are forgotten"
  },
  {
   "property": "C45",
   "status": "partial",
   "theorems": [
    "Verif.C45_as_condition_partial",
    "Verif.C45_as_condition_after_with",
    "Verif.C45_lists",
    "Verif.C45_lists_error",
    "Verif.C45_property",
    "Verif.C45_property_error",
    "Verif.C45_patterns",
    "Verif.C45_patterns_error",
    "Verif.C45_exists_partial",
    "Verif.C45_exists_error_lost",
    "Verif.C45_list_literal_operand"
   ],
   "note": "texts and errors proved; false: list literals can not be operands (C45_list_literal_operand), exists() loses the error of its property (C45_exists_error_lost); AsCondition drops what is before a WITH"
  },
  {
   "property": "C46",
   "status": "partial",
   "theorems": [
    "Verif.C46_path",
    "Verif.C46_path_error",
    "Verif.C46_path_name_lost",
    "Verif.C46_shortestPath",
    "Verif.C46_hasLabels",
    "Verif.C46_hasLabels_error",
    "Verif.C46_node_property"
   ],
   "note": "proved but for the empty name of APath, whose error is lost (C46_path_name_lost)"
  },
  {
   "property": "C47",
   "status": "partial",
   "theorems": [
    "Verif.C47_match",
    "Verif.C47_create",
    "Verif.C47_update",
    "Verif.C47_keywords",
    "Verif.C47_labels",
    "Verif.C47_labels_unnamed",
    "Verif.C47_unwind_partial",
    "Verif.C47_unwind_alias",
    "Verif.C47_unwind_unescaped",
    "Verif.C47_call",
    "Verif.C47_yield_error_lost",
    "Verif.C47_empty_arguments",
    "Verif.C47_single",
    "Verif.C47_single_error"
   ],
   "note": "proved for every clause listed; the name given to UNWIND is not escaped (C47_unwind_unescaped)"
  },
  {
   "property": "C48",
   "status": "partial",
   "theorems": [
    "Verif.C48_dates_partial",
    "Verif.C48_strings",
    "Verif.C48_zones",
    "Verif.C48_large_number"
   ],
   "note": "proved for numbers below 10^10, all strings and all time zones; larger numbers lose digits (C48_large_number)"
  },
  {
   "property": "C49",
   "status": "partial",
   "theorems": [
    "Verif.C49_list",
    "Verif.C49_list_rejects",
    "Verif.C49_sort_partial",
    "Verif.C49_sorts_partial",
    "Verif.C49_sort_by_text",
    "Verif.C49_sort_panics"
   ],
   "note": "lists proved completely; sort items are string constants (C49_sort_by_text), a text without a space panics (C49_sort_panics)"
  },
  {
   "property": "C50",
   "status": "partial",
   "theorems": [
    "Verif.C50_numbers_partial",
    "Verif.C50_node",
    "Verif.C50_nameless",
    "Verif.C50_relationship",
    "Verif.C50_project",
    "Verif.C50_to",
    "Verif.C50_to_error",
    "Verif.C50_sort",
    "Verif.C50_property",
    "Verif.C50_unwind"
   ],
   "note": "proved; integer arguments of list access and range only below 10^10, as in C06; a nameless node in InternalId and Labels is treated in C41"
  },
  {
   "property": "C51",
   "status": "partial",
   "theorems": [
    "Verif.C51_float_partial",
    "Verif.C51_exact",
    "Verif.C51_lossy",
    "Verif.C51_whole_number",
    "Verif.C51_no_number",
    "Verif.C51_percentile_partial",
    "Verif.C51_percentile_nan"
   ],
   "note": "the literal is the closest number with ten significant digits, exact precisely for numbers that have at most ten; the full claim is false (C51_lossy, C51_whole_number, C51_no_number, C51_percentile_nan)"
  },
  {
   "property": "C52",
   "status": "partial",
   "theorems": [
    "Verif.C52_reads_partial",
    "Verif.C52_unambiguous",
    "Verif.C52_same_text",
    "Verif.C52_condition_operand",
    "Verif.C52_condition_operand_misread",
    "Verif.C52_power_operand",
    "Verif.C52_power_operand_misread",
    "Verif.C52_power_access",
    "Verif.C52_power_access_misread",
    "Verif.C52_membership_list",
    "Verif.C52_membership_list_misread",
    "Verif.C52_power_test",
    "Verif.C52_keyword_names",
    "Verif.C52_reads_inside_partial",
    "Verif.C52_same_text_inside",
    "Verif.C52_dates",
    "Verif.C52_dates_read",
    "Verif.C52_temporal",
    "Verif.C52_timezone",
    "Verif.C52_relationship_property",
    "Verif.C52_aProperty",
    "Verif.C52_numbers",
    "Verif.C52_range_numbers",
    "Verif.C52_raw_list"
   ],
   "note": "proved for all the listed constructs with the restrictions recorded in the rules of Denotes; without them it is false (C52_condition_operand, C52_power_operand, C52_power_access, C52_power_test, C52_membership_list, C52_keyword_names). Includes patterns as conditions and arguments, pattern comprehensions and EXISTS, at any point of a statement (C52_reads_inside_partial). Label tests as operands of comparisons are left out."
  },
  {
   "property": "C53",
   "status": "partial",
   "theorems": [
    "Verif.C53_reads_partial",
    "Verif.C53_unambiguous",
    "Verif.C53_same_text",
    "Verif.C53_known_node_misread"
   ],
   "note": "proved for all nodes, relationships, chains, named and shortest paths with the restrictions recorded in the rules of NodeMeans and ElementMeans; without the restriction on names of nodes shown again it is false (C53_known_node_misread). Property values may be any expressions of C52 that describe no further named nodes."
  },
  {
   "property": "C54",
   "status": "partial",
   "theorems": [
    "Verif.C54_reads_partial",
    "Verif.C54_unambiguous",
    "Verif.C54_same_text",
    "Verif.C54_unwind_injected"
   ],
   "note": "proved for all sequences of clauses that Query.Ok allows, including subqueries and unions of any depth, and aliases; false beyond (C30, C31, C33, C37, C54_unwind_injected). Expressions are those of C52, including patterns, which may describe nodes for the rest of the statement."
  },
  {
   "property": "C55",
   "status": "partial",
   "theorems": [
    "Verif.C55_addresses_partial",
    "Verif.C55_address_reused",
    "Verif.C55_address_reused_alias"
   ],
   "note": "proved for all statements when different addresses stay different; false when an address comes back after a garbage collection, which nothing prevents"
  },
  {
   "property": "C56",
   "status": "partial",
   "theorems": [
    "Verif.C56_alias_partial",
    "Verif.C56_condition",
    "Verif.C56_case"
   ],
   "note": "proved for all statements in which one key belongs to one object; false for And/Or/Xor on a combination and for ElseDefault, which keep the key of the receiver"
  },
  {
   "property": "C57",
   "status": "proved",
   "theorems": [
    "Verif.C57_name_exact",
    "Verif.C57_blank_unreadable"
   ],
   "note": "equivalence, for all strings and all following texts"
  },
  {
   "property": "C58",
   "status": "proved",
   "theorems": [
    "Verif.C58_parameter_exact"
   ],
   "note": "equivalence, for all strings and all following texts"
  },
  {
   "property": "C59",
   "status": "proved",
   "theorems": [
    "Verif.C59_integer_exact",
    "Verif.C59_integer_numeral",
    "Verif.C59_integer_collision"
   ],
   "note": "equivalences, for all integers"
  },
  {
   "property": "C60",
   "status": "proved",
   "theorems": [
    "Verif.C60_arithmetic_exact",
    "Verif.C60_calls"
   ],
   "note": "equivalence, for all expressions whose operands have no errors"
  },
  {
   "property": "C61",
   "status": "proved",
   "theorems": [
    "Verif.C61_condition_exact",
    "Verif.C61_faithful"
   ],
   "note": "equivalence, for all combinations of usable conditions that are not empty; C61_faithful: the class of C16 is inside"
  },
  {
   "property": "C62",
   "status": "proved",
   "theorems": [
    "Verif.C62_case"
   ],
   "note": "every sequence of calls; complete description of panics, errors and text"
  },
  {
   "property": "C63",
   "status": "proved",
   "theorems": [
    "Verif.C63_chain",
    "Verif.C63_call_chain",
    "Verif.C63_and_needs_condition",
    "Verif.C63_on_needs_merge",
    "Verif.C63_arguments"
   ],
   "note": "all chains that type-check; the provisos are shown to be needed by chains that compile and panic or give an error"
  },
  {
   "property": "C64",
   "status": "proved",
   "theorems": [
    "Verif.C64_programs",
    "Verif.C64_call_programs",
    "Verif.C64_statement",
    "Verif.C64_permutation",
    "Verif.C64_order",
    "Verif.C64_changed",
    "Verif.C64_reads",
    "Verif.C64_reads_moved"
   ],
   "note": "complete description, also of the sequences excluded from C30 and C33; the order is preserved exactly in the cases stated; C64_programs, C64_call_programs: for chains of calls instead of queries, by parsing them"
  },
  {
   "property": "C65",
   "status": "proved",
   "theorems": [
    "Verif.C65_set",
    "Verif.C65_any_place",
    "Verif.C65_as_written"
   ],
   "note": "complete description, also of the mixtures excluded from C37"
  },
  {
   "property": "C66",
   "status": "partial",
   "theorems": [
    "Verif.C66_distinct",
    "Verif.C66_raw",
    "Verif.C66_labels_refused",
    "Verif.C66_labels",
    "Verif.C66_operation_refused",
    "Verif.C66_operation_accepted"
   ],
   "note": "proved for the first three; OperationCreate1 refuses every operand, operator and label that is there (C66_operation_refused) and accepts only missing ones"
  },
  {
   "property": "C67",
   "status": "proved",
   "theorems": [
    "Verif.C67_reported",
    "Verif.C67_exactly",
    "Verif.C67_call_exactly"
   ],
   "note": "proved as an equivalence; erroneous arguments of a procedure call that the query begins with are left out (C34_standalone_arguments_lost shows what happens to them)"
  },
  {
   "property": "C68",
   "status": "proved",
   "theorems": [
    "Verif.C68_accepted",
    "Verif.C68_text",
    "Verif.C68_uniform"
   ],
   "note": "proved as an equivalence and an equation for all nestings; statements given are not nil"
  },
  {
   "property": "C69",
   "status": "partial",
   "theorems": [
    "Verif.C69_pieces_partial",
    "Verif.C69_union_partial",
    "Verif.C69_subquery_partial",
    "Verif.C69_union_label_lost",
    "Verif.C69_union_alias_undefined",
    "Verif.C69_subquery_label_lost",
    "Verif.C69_with_label_lost",
    "Verif.C69_with_alias_undefined",
    "Verif.C69_same_clause",
    "Verif.C69_shared_true"
   ],
   "note": "false: in the second query of a union, in subqueries and after WITH the labels and properties of a node are lost and aliases are used undefined (C69_union_label_lost, C69_union_alias_undefined, C69_subquery_label_lost, C69_with_label_lost, C69_with_alias_undefined); an alias is used within the list that defines it (C69_same_clause), even if the program uses no expression twice (C69_shared_true: LiteralTrue() is one object); proved if the parts have no named node and no aliased expression in common; exactly when: C88"
  },
  {
   "property": "C70",
   "status": "proved",
   "theorems": [
    "Verif.C70_texts",
    "Verif.C70_filled",
    "Verif.C70_string"
   ],
   "note": "proved for the renderer's output before the final TrimSpace (C14); for the machine itself, without assumptions on keys"
  },
  {
   "property": "C71",
   "status": "partial",
   "theorems": [
    "Verif.C71_first_partial",
    "Verif.C71_call_first_partial",
    "Verif.C71_covers",
    "Verif.C71_operators",
    "Verif.C71_subList",
    "Verif.C71_conditions",
    "Verif.C71_lists",
    "Verif.C71_functions",
    "Verif.C71_distance",
    "Verif.C71_range",
    "Verif.C71_relationships",
    "Verif.C71_unions",
    "Verif.C71_procedures",
    "Verif.C71_args_hidden",
    "Verif.C71_delete_hidden",
    "Verif.C71_crashes"
   ],
   "note": "partial: false of the code for arguments of procedure calls and for Delete after SET or REMOVE, whose errors a later one hides; and instead of an error there is a nil pointer if a WITH, UNWIND or procedure call follows, or an updating clause follows a failed second SET or REMOVE (negations shown); C71_first_partial says exactly when"
  },
  {
   "property": "C72",
   "status": "partial",
   "theorems": [
    "Verif.C72_reported_partial",
    "Verif.C72_statements",
    "Verif.C72_same_updates",
    "Verif.C72_same_set",
    "Verif.C72_same_lists",
    "Verif.C72_same_others",
    "Verif.C72_same_clauses",
    "Verif.C72_call_panics",
    "Verif.C72_patterns",
    "Verif.C72_render_panics",
    "Verif.C72_where_nil",
    "Verif.C72_where_vanishes",
    "Verif.C72_nil_inside",
    "Verif.C72_deletes_everything"
   ],
   "note": "partial: holds for operators, comparisons, list access, aliases, properties, patterns in functions, distance, percentiles, quantifiers, subqueries and unions; false for lists, function arguments, DELETE, SET, WITH, the first pattern of CREATE and MERGE (panic), for RETURN, MATCH, UNWIND, ORDER BY and procedure arguments (panic when rendered), for later patterns of CREATE and MERGE, Where(nil) and And(nil) (statement without them): exact statements for all of these"
  },
  {
   "property": "C73",
   "status": "proved",
   "theorems": [
    "Verif.C73_relationship",
    "Verif.C73_chain",
    "Verif.C73_node",
    "Verif.C73_raw",
    "Verif.C73_node_again",
    "Verif.C73_lost"
   ],
   "note": "exact for all sequences of calls; texts of names and types are asked to be readable (not blank, C03; some type not empty, C29)"
  },
  {
   "property": "C74",
   "status": "proved",
   "theorems": [
    "Verif.C74_panics",
    "Verif.C74_return",
    "Verif.C74_with",
    "Verif.C74_lost"
   ],
   "note": "exact for all ordering calls that the interfaces allow"
  },
  {
   "property": "C75",
   "status": "proved",
   "theorems": [
    "Verif.C75_residue",
    "Verif.C75_panics",
    "Verif.C75_return",
    "Verif.C75_reading",
    "Verif.C75_list",
    "Verif.C75_lost"
   ],
   "note": "exact; C75_lost: after an updating clause errors are printed or make Render panic"
  },
  {
   "property": "C76",
   "status": "proved",
   "theorems": [
    "Verif.C76_memory",
    "Verif.C76_kept",
    "Verif.C76_forks",
    "Verif.C76_exactly"
   ],
   "note": "exact; Go's growth of slices as it is up to 512 conditions"
  },
  {
   "property": "C77",
   "status": "proved",
   "theorems": [
    "Verif.C77_receiver",
    "Verif.C77_changes",
    "Verif.C77_full",
    "Verif.C77_room",
    "Verif.C77_exactly",
    "Verif.C77_texts"
   ],
   "note": "exact, for any growth of capacity (for `Relationship` values Go's growth depends on the size of the struct); C77_texts: a witness in text"
  },
  {
   "property": "C78",
   "status": "proved",
   "theorems": [
    "Verif.C78_kept",
    "Verif.C78_panics",
    "Verif.C78_full",
    "Verif.C78_room",
    "Verif.C78_spoiled",
    "Verif.C78_exactly",
    "Verif.C78_then",
    "Verif.C78_texts"
   ],
   "note": "exact, for any growth of capacity; C78_texts: a witness in text"
  },
  {
   "property": "C79",
   "status": "proved",
   "theorems": [
    "Verif.C79_entries_errors",
    "Verif.C79_entries_text",
    "Verif.C79_entries_steps",
    "Verif.C79_entries_error_lost",
    "Verif.C79_entries_twice",
    "Verif.C79_aliased_accepted",
    "Verif.C79_aliased_error",
    "Verif.C79_aliased_text",
    "Verif.C79_name_text",
    "Verif.C79_patterns_accepted",
    "Verif.C79_patterns_text"
   ],
   "note": "exact; C79_entries_error_lost, C79_entries_twice: what a user would not expect of AddEntries"
  },
  {
   "property": "C80",
   "status": "proved",
   "theorems": [
    "Verif.C80_uses",
    "Verif.C80_call_uses",
    "Verif.C80_growth",
    "Verif.C80_others",
    "Verif.C80_sets",
    "Verif.C80_unwinds",
    "Verif.C80_actions"
   ],
   "note": "exact companion of the C39 theorems for builders: C80_uses for all programs, C80_sets, C80_unwinds, C80_actions in terms of programs that use no builder twice"
  },
  {
   "property": "C81",
   "status": "proved",
   "theorems": [
    "Verif.C81_words",
    "Verif.C81_unique",
    "Verif.C81_string",
    "Verif.C81_label",
    "Verif.C81_types"
   ],
   "note": "C81_words with C70_texts; C81_string, C81_label, C81_types: filling a place is building the part with the contents put in. Names that are printed without escapes are the subject of C05, C12, C40 and C54"
  },
  {
   "property": "C82",
   "status": "proved",
   "theorems": [
    "Verif.C82_uses",
    "Verif.C82_then",
    "Verif.C82_full",
    "Verif.C82_one",
    "Verif.C82_room"
   ],
   "note": "exact companion of C39_builders_clauses; C82_uses with C82_then: what any program sees of any of the continuations; C82_full, C82_one, C82_room: when they are independent"
  },
  {
   "property": "C83",
   "status": "proved",
   "theorems": [
    "Verif.C83_in_turn",
    "Verif.C83_apart",
    "Verif.C83_new",
    "Verif.C83_one_renderer"
   ],
   "note": "C83_apart, C83_new, C83_in_turn: for all schedules; C83_one_renderer: two overlapping calls on one renderer spoil each other. Steps are single calls of enter, leave and append, in some order (sequential consistency); Go's own check for concurrent map writes is not modelled. That rendering writes to nothing but the renderer was checked by reading every accept, enter and leave method"
  },
  {
   "property": "C84",
   "status": "proved",
   "theorems": [
    "Verif.C84_composed",
    "Verif.C84_sequence",
    "Verif.C84_shared"
   ],
   "note": "C84_composed, C84_sequence; C84_shared: the text is spoilt if a condition made by And contains its receiver with an alias. C40_objects_partial: brackets under the same hypothesis"
  },
  {
   "property": "C85",
   "status": "proved",
   "theorems": [
    "Verif.C85_string",
    "Verif.C85_quoted",
    "Verif.C85_names",
    "Verif.C85_invalid",
    "Verif.C85_agree",
    "Verif.C85_parameters",
    "Verif.C85_faithful",
    "Verif.C85_render",
    "Verif.C85_filled"
   ],
   "note": "C85_string, C85_quoted, C85_names, C85_invalid, C85_agree, C85_parameters, C85_faithful. C85_names and C85_invalid assume that U+FFFD is no letter, digit or white space, as in Go's tables; C85_render, C85_filled: whole statements as bytes, with C70"
  },
  {
   "property": "C86",
   "status": "proved",
   "theorems": [
    "Verif.C86_words",
    "Verif.C86_unique",
    "Verif.C86_all",
    "Verif.C86_variable",
    "Verif.C86_alias",
    "Verif.C86_property",
    "Verif.C86_entry",
    "Verif.C86_parameter",
    "Verif.C86_node"
   ],
   "note": "C86_words with C70_texts; C86_all: together with C81; C86_variable, C86_alias, C86_property, C86_entry, C86_parameter, C86_node: filling a place is building the part with the name put in"
  },
  {
   "property": "C87",
   "status": "proved",
   "theorems": [
    "Verif.C87_shown",
    "Verif.C87_text",
    "Verif.C87_quote",
    "Verif.C87_made",
    "Verif.C87_reads",
    "Verif.C87_same_text",
    "Verif.C87_raw",
    "Verif.C87_number_collision"
   ],
   "note": "C87_shown, C87_text, C87_quote, C87_made: all literals; C87_reads, C87_same_text: data with numbers of at most ten significant digits, see C87_number_collision and C87_raw for what is outside"
  },
  {
   "property": "C88",
   "status": "proved",
   "theorems": [
    "Verif.C88_display",
    "Verif.C88_first_difference",
    "Verif.C88_text",
    "Verif.C88_memory",
    "Verif.C88_parts",
    "Verif.C88_parts_text",
    "Verif.C88_render"
   ],
   "note": "C88_display: if and only if, for any memory; C88_memory: what is remembered, in terms of what was shown; C88_parts, C88_parts_text, C88_render; C88_first_difference.  The text is the same if no alias is itself an aliased expression"
  },
  {
   "property": "C89",
   "status": "proved",
   "theorems": [
    "Verif.C89_follow",
    "Verif.C89_begin",
    "Verif.C89_admits",
    "Verif.C89_return_last",
    "Verif.C89_build"
   ],
   "note": "C89_follow: if and only if, against a table that knows no interfaces; C89_begin; C89_admits: chains as a whole, if and only if; C89_return_last; C89_build: if and only if.  AsCondition, AsFunction and GetErr are left out"
  }
 ]
}