{
 "claims": [
  {
   "property": "C01",
   "status": "proved",
   "theorems": [
    "Verif.RUCache.C01_bounded",
    "Verif.RUCache.C01_zero_capacity_raises",
    "Verif.RUCache.C01_negative_capacity_unbounded"
   ],
   "note": "All capacities: >=1 bounded and exception free, 0 raises, negative never evicts. max_size constant; lawful key equality."
  },
  {
   "property": "C02",
   "status": "proved",
   "theorems": [
    "Verif.RUCache.C02_map_with_announced_losses"
   ],
   "note": "Against a client-side expectation computed from calls and announced evictions only."
  },
  {
   "property": "C03",
   "status": "proved",
   "theorems": [
    "Verif.RUCache.C03_refines_clock",
    "Verif.RUCache.C03_victim"
   ],
   "note": "Observational refinement of an independent second-chance queue."
  },
  {
   "property": "C04",
   "status": "proved",
   "theorems": [
    "Verif.LineCache.C04_linecache_consistent"
   ],
   "note": "Invariant over all populate/has/evict histories."
  },
  {
   "property": "C05",
   "status": "partial",
   "theorems": [
    "Verif.LineCache.C05_refuted_collision",
    "Verif.LineCache.C05_refuted_self_eviction",
    "Verif.LineCache.C05_refuted_cleared",
    "Verif.LineCache.C05_last_file_partial",
    "Verif.LineCache.C05_own_code_partial"
   ],
   "note": "The code violates the full claim (three witnesses); proved under the stated hypotheses."
  },
  {
   "property": "C06",
   "status": "partial",
   "theorems": [
    "Verif.Options.C06_refuted",
    "Verif.Options.C06_stack_partial",
    "Verif.Options.C06_depth_two_partial"
   ],
   "note": "The single prev_options slot breaks nesting of depth 3; proved for histories without two consecutive exits that end inside a context."
  },
  {
   "property": "C07",
   "status": "proved",
   "theorems": [
    "Verif.Options.C07_defaults_restored"
   ],
   "note": "Balanced histories."
  },
  {
   "property": "C08",
   "status": "proved",
   "theorems": [
    "Verif.Options.C08_thread_isolation"
   ],
   "note": "Every interleaving of threads."
  },
  {
   "property": "C09",
   "status": "proved",
   "theorems": [
    "Verif.Names.C09_names_unique",
    "Verif.Names.C09_names_stable",
    "Verif.Names.C09_name_shape"
   ],
   "note": "Every request sequence and random stream."
  },
  {
   "property": "C10",
   "status": "partial",
   "theorems": [
    "Verif.Names.C10_intact_partial",
    "Verif.Names.C10_refuted_closures",
    "Verif.Names.C10_refuted_floats",
    "Verif.Names.C10_refuted_shadowed_builtin",
    "Verif.Names.C10_refuted_subclass"
   ],
   "note": "Violated for equal-hash objects, shadowed builtins and int/str subclasses; proved otherwise."
  },
  {
   "property": "C11",
   "status": "proved",
   "theorems": [
    "Verif.Names.C11_identifier",
    "Verif.Names.C11_identifier_kept",
    "Verif.Names.C11_idempotent"
   ],
   "note": "All strings."
  },
  {
   "property": "C12",
   "status": "proved",
   "theorems": [
    "Verif.Signature.C12_default_signature",
    "Verif.Signature.C12_both_flags",
    "Verif.Signature.C12_explicit_signature",
    "Verif.Signature.C12_refuted_word_is_parameter"
   ],
   "note": "The claim as stated is proved; the converse (an accepted signature binds the names) is refuted by C12_refuted_word_is_parameter."
  },
  {
   "property": "C13",
   "status": "partial",
   "theorems": [
    "Verif.Expr.C13_expressions_partial",
    "Verif.Expr.C13_checked_partial",
    "Verif.Expr.C13_refuted_empty_set",
    "Verif.Expr.C13_refuted_empty_tuple"
   ],
   "note": "Compile correctness for the whole fragment on arbitrary runtimes except () and set(), which are miscompiled; input arguments must not be named like generated variables."
  },
  {
   "property": "C14",
   "status": "proved",
   "theorems": [
    "Verif.Expr.C14_pipe_stages",
    "Verif.Expr.C14_stages_in_order"
   ],
   "note": "Any chain length; stages pass a check on their form which all expressions of C13 pass."
  },
  {
   "property": "C15",
   "status": "partial",
   "theorems": [
    "Verif.Expr.C15_once_partial",
    "Verif.Expr.C15_pure_partial",
    "Verif.Expr.C15_refuted"
   ],
   "note": "Holds if the second stage uses its input exactly once and first, or if the first stage is pure; refuted when the second stage returns before it comes to its input."
  },
  {
   "property": "C16",
   "status": "partial",
   "theorems": [
    "Verif.Expr.C16_once_partial",
    "Verif.Expr.C15_once_partial",
    "Verif.Expr.C16_refuted_twice",
    "Verif.Expr.C16_refuted_text"
   ],
   "note": "The first stage is inlined at every mention; refuted for two mentions and for a text contained in a constant."
  },
  {
   "property": "C17",
   "status": "partial",
   "theorems": [
    "Verif.Heap.C17_pipe",
    "Verif.Heap.C17_associative_partial",
    "Verif.Heap.C17_refuted_limit"
   ],
   "note": "Exact behaviour of pipe on the object heap; the length limit is checked per operand only, so longer chains can be built and the bracketings differ at the limit."
  },
  {
   "property": "C18",
   "status": "partial",
   "theorems": [
    "Verif.Expr.C18_if_partial",
    "Verif.Expr.C18_input_once_partial",
    "Verif.Expr.C18_refuted_key_error",
    "Verif.Expr.C18_refuted_twice",
    "Verif.Expr.C18_refuted_truth"
   ],
   "note": "Refuted: condition not reaching its input (KeyError), condition mentioning its input twice, inputs whose truth cannot be tested."
  },
  {
   "property": "C19",
   "status": "proved",
   "theorems": [
    "Verif.Expr.C19_text",
    "Verif.Expr.C19_no_call",
    "Verif.Expr.C19_no_effects"
   ],
   "note": "input_is_simple admits exactly names, constants and label-free accesses whose evaluation calls nothing and changes nothing."
  },
  {
   "property": "C20",
   "status": "partial",
   "theorems": [
    "Verif.Expr.C20_default_partial",
    "Verif.Expr.C20_refuted_args"
   ],
   "note": "Input arguments in indexes raise NameError."
  },
  {
   "property": "C21",
   "status": "proved",
   "theorems": [
    "Verif.Expr.C21_and_or",
    "Verif.Expr.C21_eq",
    "Verif.Expr.C21_value",
    "Verif.Expr.C21_eq_value"
   ],
   "note": "Any number of arguments; effects, short-circuiting and exceptions included."
  },
  {
   "property": "C22",
   "status": "partial",
   "theorems": [
    "Verif.Expr.C22_effects",
    "Verif.Expr.C22_items_partial",
    "Verif.Expr.C22_pairs_partial",
    "Verif.Expr.C22_default",
    "Verif.Expr.C22_skip_value",
    "Verif.Expr.C22_skip_if",
    "Verif.Expr.C22_keep_if",
    "Verif.Expr.C22_rejected",
    "Verif.Expr.C22_refuted_both"
   ],
   "note": "Lists, tuples and sets whatever items and conditions do; dicts with pure parts; refuted when both skip_if and keep_if are given (keep_if wins silently)."
  },
  {
   "property": "C23",
   "status": "proved",
   "theorems": [
    "Verif.Expr.C23_effects",
    "Verif.Expr.C23_items_partial",
    "Verif.Expr.C23_pairs_partial",
    "Verif.Expr.C23_dict_partial",
    "Verif.Expr.C23_raises"
   ],
   "note": "C23_effects: whatever conditions and items do to the state, element by element, including what raises (every run has a derivation: collects_total); the theorems named partial give the closed form for items without effects. For conversions compiled right (hypothesis ok: C13). Generator comprehensions: C54."
  },
  {
   "property": "C24",
   "status": "partial",
   "theorems": [
    "Verif.Expr.C24_list_partial",
    "Verif.Expr.C24_tuple_partial",
    "Verif.Expr.C24_dict_partial",
    "Verif.Agg.C24_group_by",
    "Verif.Expr.C24_refuted_dict"
   ],
   "note": "Sorted list/tuple/dict comprehensions; refuted for duplicate keys of a dict. group_by(...).sort is proved for all keys."
  },
  {
   "property": "C25",
   "status": "proved",
   "theorems": [
    "Verif.Expr.C25_tap"
   ],
   "note": "All kinds of mutations, with effects and exceptions."
  },
  {
   "property": "C26",
   "status": "partial",
   "theorems": [
    "Verif.Labels.C26_at_every_moment",
    "Verif.Labels.C26_reads_latest_partial",
    "Verif.Labels.C26_refuted_held",
    "Verif.Expr.C26_labelling_partial",
    "Verif.Expr.C26_reading",
    "Verif.Expr.C26_add_labels_partial",
    "Verif.Expr.C26_refuted_own_label",
    "Verif.Expr.C26_refuted_dropped",
    "Verif.Expr.C26_refuted_auto"
   ],
   "note": "Reads give the latest value; the labelling code is right unless a label conversion labels the own name again, a label has the generated name, or a label conversion ends in c.this(), which is dropped; a generator inside a plain result reads its labels too late. C26_at_every_moment says exactly what any client sees at any time."
  },
  {
   "property": "C27",
   "status": "partial",
   "theorems": [
    "Verif.Labels.C27_labels_dropped_partial",
    "Verif.Labels.C27_observed_partial",
    "Verif.Labels.C27_refuted",
    "Verif.Labels.C27_refuted_held"
   ],
   "note": "A generator dropped before its first next leaves its labels, so does one inside a plain result; every other way to end a use clears them, in any state."
  },
  {
   "property": "C28",
   "status": "partial",
   "theorems": [
    "Verif.Labels.C28_refuted_generators",
    "Verif.Labels.C28_refuted_threads",
    "Verif.Labels.C28_no_labels_partial",
    "Verif.Labels.C28_sequential_partial"
   ],
   "note": "Refuted by schedules; proved for label-free code under all schedules and for sequential uses."
  },
  {
   "property": "C29",
   "status": "partial",
   "theorems": [
    "Verif.Heap.C29_success_partial",
    "Verif.Heap.C29_codes_partial",
    "Verif.Heap.C29_grown_partial",
    "Verif.Heap.C29_failure_partial",
    "Verif.Heap.C29_refuted_failure",
    "Verif.Heap.C29_refuted_threads",
    "Verif.Heap.C29_refuted_sorted"
   ],
   "note": "Successful sequential compilation changes nothing if generating the code of a stage does not; if it only adds dependencies (sorted comprehensions), only dependencies are added; a failed one removes exactly one stage link; concurrent compilation can corrupt both code and conversion."
  },
  {
   "property": "C30",
   "status": "partial",
   "theorems": [
    "Verif.Heap.C30_originals_kept_partial",
    "Verif.Heap.C30_refuted_reduce_filter",
    "Verif.Heap.C30_refuted_add_label",
    "Verif.Heap.C30_refuted_aggregate"
   ],
   "note": "Holds for all derivations except Reduce.filter, CachingConversion.add_label and GroupBy.aggregate, which mutate existing objects."
  },
  {
   "property": "C31",
   "status": "partial",
   "theorems": [
    "Verif.Signature.C31_method_instance_partial",
    "Verif.Signature.C31_refuted"
   ],
   "note": "Falsy instances receive the class instead (instance or cls)."
  },
  {
   "property": "C32",
   "status": "partial",
   "theorems": [
    "Verif.Agg.C32_one_per_key",
    "Verif.Agg.C32_output_partial",
    "Verif.Agg.C32_refuted_no_reduces"
   ],
   "note": "Whatever the reduces and the result expression do; keys compared with ==. Refuted without any reduce: the code does not compile."
  },
  {
   "property": "C33",
   "status": "partial",
   "theorems": [
    "Verif.Agg.C33_group_by_partial",
    "Verif.Reducers.C33_builtins_partial",
    "Verif.Reducers.C33_refuted_initial"
   ],
   "note": "Equivalence with the per-group, per-reduce specification under hypotheses the code can violate (hash clashes: C35, initialisation: C33_refuted_initial)."
  },
  {
   "property": "C34",
   "status": "partial",
   "theorems": [
    "Verif.Agg.C34_aggregate_partial",
    "Verif.Agg.C34_unconditional_partial",
    "Verif.Agg.C34_first_row_partial",
    "Verif.Agg.C34_refuted"
   ],
   "note": "Refuted: the two-phase loop of aggregate skips rows for blocks that initialise late."
  },
  {
   "property": "C35",
   "status": "partial",
   "theorems": [
    "Verif.Agg.C35_sharing_partial",
    "Verif.Agg.C35_refuted_aggregate",
    "Verif.Agg.C35_refuted_group_by",
    "Verif.Stmt.Demo.C35_refuted_constant",
    "Verif.Stmt.Demo.C35_refuted_filter"
   ],
   "note": "Shared slots are right when equal hashes mean equal reduces; the hash of the code text violates that in both modes (inline expressions, constants and filters containing the name of the variable; digits in c.aggregate). For built-in reducers in group_by without such constants it holds: C58."
  },
  {
   "property": "C36",
   "status": "proved",
   "theorems": [
    "Verif.Reducers.C36_sum",
    "Verif.Reducers.C36_sum_or_none"
   ],
   "note": "Values are integers, None or falsy objects; every filter, default and row list."
  },
  {
   "property": "C37",
   "status": "proved",
   "theorems": [
    "Verif.Reducers.C37_max",
    "Verif.Reducers.C37_min",
    "Verif.Reducers.C37_max_row",
    "Verif.Reducers.C37_min_row"
   ],
   "note": "Non-None values comparable by a strict weak order, as the claim requires."
  },
  {
   "property": "C38",
   "status": "proved",
   "theorems": [
    "Verif.Reducers.C38_count",
    "Verif.Reducers.C38_count_distinct",
    "Verif.Reducers.C38_first",
    "Verif.Reducers.C38_last",
    "Verif.Reducers.C38_array",
    "Verif.Reducers.C38_array_distinct"
   ],
   "note": "All row lists, filters and defaults."
  },
  {
   "property": "C39",
   "status": "proved",
   "theorems": [
    "Verif.Reducers.C39_dict_last",
    "Verif.Reducers.C39_dict_first",
    "Verif.Reducers.C39_dict_array",
    "Verif.Reducers.C39_dict_array_distinct",
    "Verif.Reducers.C39_dict_count_distinct",
    "Verif.Reducers.C39_dict_sum",
    "Verif.Reducers.C39_dict_sum_or_none",
    "Verif.Reducers.C39_dict_max",
    "Verif.Reducers.C39_dict_min",
    "Verif.Reducers.C39_dict_count"
   ],
   "note": "Dict and DictLast are the same statements."
  },
  {
   "property": "C40",
   "status": "partial",
   "theorems": [
    "Verif.Reducers.C40_default",
    "Verif.Reducers.C40_no_sentinel_partial",
    "Verif.Reducers.C40_builtins",
    "Verif.Reducers.C40_refuted"
   ],
   "note": "A custom reduce with initial and no default shows the internal _none object on empty input."
  },
  {
   "property": "C41",
   "status": "partial",
   "theorems": [
    "Verif.Reducers.C41_custom_partial",
    "Verif.Reducers.C41_last_partial",
    "Verif.Reducers.C41_sum_or_none_partial",
    "Verif.Reducers.C41_refuted_accumulators",
    "Verif.Reducers.C41_refuted_max",
    "Verif.Reducers.C41_refuted_first"
   ],
   "note": "Holds for custom functions, Last and SumOrNone; the other statement reducers do not use initial as a starting value."
  },
  {
   "property": "C42",
   "status": "partial",
   "theorems": [
    "Verif.GroupKeys.C42_value_partial",
    "Verif.GroupKeys.C42_rejected_partial",
    "Verif.GroupKeys.C42_key_partial",
    "Verif.GroupKeys.C42_other_partial",
    "Verif.GroupKeys.C42_collection_partial",
    "Verif.GroupKeys.C42_refuted_constant",
    "Verif.GroupKeys.C42_refuted_changed",
    "Verif.GroupKeys.C42_refuted_attribute",
    "Verif.GroupKeys.C42_refuted_constant_key"
   ],
   "note": "The textual replacement does what it should for keys that are lookups by constants and items whose names and constants do not contain row_; refuted for constants containing row_, attribute keys which are prefixes of other attributes, and constant keys."
  },
  {
   "property": "C43",
   "status": "proved",
   "theorems": [
    "Verif.Join.C43_split_preserves"
   ],
   "note": "All conditions built of and_, == and other conversions, nested in any way; keys with an equivalence ==."
  },
  {
   "property": "C44",
   "status": "partial",
   "theorems": [
    "Verif.Join.C44_inner_partial",
    "Verif.Join.C44_refuted_generator",
    "Verif.Join.C44_refuted_iterator",
    "Verif.Join.C44_refuted_guard"
   ],
   "note": "Refuted without an equality of keys when the right side is a generator or iterator (exhausted after the first left row), and for guarded conversions that raise."
  },
  {
   "property": "C45",
   "status": "partial",
   "theorems": [
    "Verif.Join.C45_left_partial",
    "Verif.Join.C45_refuted_prefilter",
    "Verif.Join.C45_refuted_generator"
   ],
   "note": "Refuted when a conjunct on neither row is false, and as for C44."
  },
  {
   "property": "C46",
   "status": "partial",
   "theorems": [
    "Verif.Join.C46_right_partial",
    "Verif.Join.C46_refuted_hashers",
    "Verif.Join.C46_refuted_filters"
   ],
   "note": "Right joins exchange the hash functions of the sides and drop right rows by filters on the right row."
  },
  {
   "property": "C47",
   "status": "partial",
   "theorems": [
    "Verif.Join.C47_outer_partial",
    "Verif.Join.C47_refuted_none",
    "Verif.Join.C47_refuted_prefilter"
   ],
   "note": "Proved also for iterators; refuted for an unmatched None and for a false conjunct on neither row."
  },
  {
   "property": "C48",
   "status": "partial",
   "theorems": [
    "Verif.Text.C48_expression",
    "Verif.Text.C48_conversion_partial",
    "Verif.Text.C48_operators_partial",
    "Verif.Text.C48_stages_partial",
    "Verif.Text.C48_assignment",
    "Verif.Text.C48_refuted_negative",
    "Verif.Text.C48_refuted_number",
    "Verif.Text.C48_refuted_label"
   ],
   "note": "Texts lexed and parsed with Python's grammar give back the operator tree, for every nesting; refuted for lookups on number constants and labels with quotes."
  },
  {
   "property": "C49",
   "status": "partial",
   "theorems": [
    "Verif.Text.C49_choice",
    "Verif.Text.C49_text_partial",
    "Verif.Text.C49_value",
    "Verif.Text.C49_refuted_keyword"
   ],
   "note": "The regular expression picks exactly string constants that look like identifiers; refuted for Python keywords (c.attr('class') is a syntax error)."
  },
  {
   "property": "C50",
   "status": "partial",
   "theorems": [
    "Verif.Expr.C50_accepted",
    "Verif.Expr.C50_mutations",
    "Verif.Expr.C50_meaning_partial",
    "Verif.Expr.C50_refuted_empty_set",
    "Verif.Expr.C50_refuted_empty_tuple"
   ],
   "note": "Objects of any nesting, slices too; set() becomes {} and () is a syntax error."
  },
  {
   "property": "C51",
   "status": "partial",
   "theorems": [
    "Verif.Exec.C51_text_partial",
    "Verif.Stmt.Grammar.source_program"
   ],
   "note": "The complete texts of a converter and of the functions it calls (def lines, indentation, try/except, if/yield, return), read by the grammar of statements in exactly one way and run in a module, give what den says; partial where C13 and C48 are, and names must not clash with those of the module."
  },
  {
   "property": "C52",
   "status": "partial",
   "theorems": [
    "Verif.Heap.C52_covered_partial",
    "Verif.Heap.C52_args_partial",
    "Verif.Heap.C52_refuted_sort_key",
    "Verif.Heap.C52_refuted_late_label",
    "Verif.Heap.C52_refuted_late_filter",
    "Verif.Heap.C52_refuted_exact"
   ],
   "note": "By an invariant over all programs of derivations; refuted for conversions as sort keys, for add_label and Reduce.filter on objects already in use; the converse is refuted too (replaced args stay dependencies)."
  },
  {
   "property": "C53",
   "status": "partial",
   "theorems": [
    "Verif.Heap.C53_add_label_partial",
    "Verif.Heap.C53_labels_partial",
    "Verif.Heap.C53_numbers_partial",
    "Verif.Heap.C53_refuted_this"
   ],
   "note": "A GetItem without indexes is taken for the labelled value even if it has an input of its own (refuted); numbers are distinct as long as the counter does not start again (2^30)."
  },
  {
   "property": "C54",
   "status": "proved",
   "theorems": [
    "Verif.Lazy.C54_on_demand",
    "Verif.Lazy.C54_create",
    "Verif.Lazy.C54_drained",
    "Verif.Lazy.C54_chain"
   ],
   "note": "Equivalence of chained generators with element-by-element processing, for every number of next calls."
  },
  {
   "property": "C55",
   "status": "partial",
   "theorems": [
    "Verif.Lazy.C55_filter",
    "Verif.Lazy.C55_method",
    "Verif.Lazy.C55_comprehension_partial",
    "Verif.Lazy.C55_unfiltered",
    "Verif.Lazy.C55_refuted_twice",
    "Verif.Lazy.C55_refuted_cast"
   ],
   "note": "A second filter replaces the condition of the first (refuted); filter of comprehensions takes no cast. Conditions without effects."
  },
  {
   "property": "C56",
   "status": "partial",
   "theorems": [
    "Verif.Stmt.C56_aggregate_partial",
    "Verif.Stmt.C56_group_by_partial",
    "Verif.Stmt.Demo.C56_refuted_constant",
    "Verif.Stmt.Demo.C56_refuted_aggregate",
    "Verif.Stmt.Demo.C56_refuted_arg"
   ],
   "note": "Lexer, indentation, grammar (what is read is derived by its rules: Grammar.source_program) and evaluation of statements, for every list of reduces; reduces with equal hashes must be equal (C35), and the two-phase loop of aggregate must not skip rows (C34). Refuted: constants containing the name of a variable, c.aggregate of sums of items 1 and 2, input arguments named like variables of the template."
  },
  {
   "property": "C57",
   "status": "proved",
   "theorems": [
    "Verif.Stmt.C57_aggregate",
    "Verif.Stmt.C57_group_by"
   ],
   "note": "All 23 templates, from the text to the result; example: a filtered sum over rows of two numbers (Stmt/Demo.lean)."
  },
  {
   "property": "C58",
   "status": "proved",
   "theorems": [
    "Verif.Stmt.C58_group_by",
    "Verif.Stmt.same_hash"
   ],
   "note": "The texts compared by code_hash are read back: equal texts have equal reducers, argument trees and filters. Example with three reduces sharing two variables: Stmt/Demo2.lean."
  },
  {
   "property": "C59",
   "status": "proved",
   "theorems": [
    "Verif.JoinGen.C59_stream",
    "Verif.JoinGen.C59_on_demand",
    "Verif.JoinGen.C59_drained",
    "Verif.JoinGen.C59_ended"
   ],
   "note": "Three nested suspended generators against plain nested loops, on an arbitrary state; labels keep their values (C26-C28), iter has no effects, and the conversion of a left row to its key runs once (chains of lookups are repeated by If, C19)."
  },
  {
   "property": "C60",
   "status": "partial",
   "theorems": [
    "Verif.Heap.C60_partial",
    "Verif.Heap.C60_refuted_two_pipes",
    "Verif.Heap.C60_refuted_method",
    "Verif.Heap.C60_refuted_sort"
   ],
   "note": "By identity, for all programs that copy no pipe with a reduce as an earlier stage; the example pipes a reduce once. Refuted: c.reduce(..).pipe(a).pipe(b), c.reduce(..).item(k).pipe(a) and c.reduce(..).pipe(c.list_comp(..)).sort() lose the variable (KeyError)."
  },
  {
   "property": "C61",
   "status": "partial",
   "theorems": [
    "Verif.Heap.C61_partial",
    "Verif.Heap.C61_constructed",
    "Verif.Heap.C61_refuted_piped_collection"
   ],
   "note": "For results that are not collections with an input. Refuted: the input of a piped dict, list, tuple or set is dropped."
  },
  {
   "property": "C62",
   "status": "partial",
   "theorems": [
    "Verif.Construct.C62_plain",
    "Verif.Construct.C62_dict_partial",
    "Verif.Construct.C62_dict_refuses",
    "Verif.Construct.C62_refuted_piped"
   ],
   "note": "All parameters of reduces; dict reducers with a pair that is not the end of a pipe. Refuted: the first stages of a piped pair are lost."
  },
  {
   "property": "C63",
   "status": "partial",
   "theorems": [
    "Verif.JoinGen.C63_at_once_partial",
    "Verif.JoinGen.C63_sequence_partial",
    "Verif.JoinGen.C63_ended",
    "Verif.JoinGen.C63_refuted_later",
    "Verif.JoinGen.C63_refuted_zip",
    "Verif.JoinGen.C63_refuted_outer"
   ],
   "note": "Uses whose result is consumed at once, after anything and among any pending ones. Refuted for generators made before they are consumed (c.list_comp(c.join(..))) and for two consumed in turns: rows are paired with the right side of another use, or KeyError."
  },
  {
   "property": "C64",
   "status": "partial",
   "theorems": [
    "Verif.JoinNames.C64_inner_loop",
    "Verif.JoinNames.C64_key_partial",
    "Verif.JoinNames.C64_filter_partial",
    "Verif.JoinNames.C64_refuted_key",
    "Verif.JoinNames.C64_refuted_filter",
    "Verif.JoinNames.C64_refuted_argument"
   ],
   "note": "Inner loop: all parts. Keys and filters: rows mentioned where the input is still the row. Theorems speak of parts that do not raise (call by name, see C15). Refuted: c.LEFT in a later stage of a pipe in a key or filter is the result of the earlier stage; arguments named left_item/right_item are the rows."
  },
  {
   "property": "C65",
   "status": "partial",
   "theorems": [
    "Verif.JoinNames.C65_partial",
    "Verif.JoinNames.C65_refuted_left"
   ],
   "note": "All arguments not named left or right; those make the converter of the join a SyntaxError."
  },
  {
   "property": "C66",
   "status": "partial",
   "theorems": [
    "Verif.Stmt.C66_aggregate_partial",
    "Verif.Stmt.C66_group_by_partial",
    "Verif.Stmt.C66_builtins_partial",
    "Verif.Stmt.Demo.C66_refuted"
   ],
   "note": "Objects on the heap of the generated program, for all reduces with different code hashes and all groups. Refuted for reduces written twice: they share one variable, so that both results are the same list. Values of the user kept as they are (First, Last, items of lists) are shared with the rows, of course."
  },
  {
   "property": "C67",
   "status": "partial",
   "theorems": [
    "Verif.Stmt.C67_group_by_partial",
    "Verif.Stmt.C67_aggregate_partial",
    "Verif.Stmt.Demo.C67_refuted_sentinel"
   ],
   "note": "group_by: any list of reduces with functions; c.aggregate: one. Inline expressions: C71, additional_args: C72. Refuted: with initial, without default and with nothing to reduce the result is the internal marker of variables without a value."
  },
  {
   "property": "C68",
   "status": "partial",
   "theorems": [
    "Verif.Stmt.C68_group_by_partial",
    "Verif.Stmt.C68_aggregate_partial",
    "Verif.Stmt.mixed_differ"
   ],
   "note": "Any mixed list of built-in reducers (without initial) and functions in group_by; nothing assumed about code_hash. No additional_args, no inline expressions. For c.aggregate: reduces with different code_hash, each with a value after the first row (C34_refuted and C35_refuted_aggregate show why)."
  },
  {
   "property": "C69",
   "status": "partial",
   "theorems": [
    "Verif.Inline.C69_fields",
    "Verif.Inline.C69_fields_mixed",
    "Verif.Inline.C69_operands_partial",
    "Verif.Inline.C69_nested_partial",
    "Verif.Inline.C69_conversions_partial",
    "Verif.Inline.C69_left_join_partial",
    "Verif.Inline.C69_refuted_negative",
    "Verif.Inline.C69_refuted_capture"
   ],
   "note": "The text for all templates and arguments (C69_fields). How it is read: templates whose fields stand where operands are expected, within the grammar of Text/Parse (one `for` per comprehension, so the template of inner joins is missing). Refuted: a lookup or call behind a field filled with a negative number; variables of comprehensions in the template capture names in arguments."
  },
  {
   "property": "C70",
   "status": "partial",
   "theorems": [
    "Verif.Inline.C70_operators_partial",
    "Verif.Inline.C70_words",
    "Verif.Inline.C70_unary",
    "Verif.Inline.C70_formula_partial",
    "Verif.Inline.C70_text",
    "Verif.Inline.C70_text_one",
    "Verif.Inline.C70_refuted_negative"
   ],
   "note": "All operator methods of BaseConversion and formulas of any size over any operands; C70_text ties the operators of Verif/Expr to the templates of the code. Refuted: a lookup in a negative number."
  },
  {
   "property": "C71",
   "status": "partial",
   "theorems": [
    "Verif.Stmt.C71_group_by_partial",
    "Verif.Stmt.C71_aggregate_partial",
    "Verif.Stmt.Demo.C71_refuted_shared"
   ],
   "note": "Format strings which are filled with two arguments and whose fields stand apart from names; what a format string computes is a hypothesis, which is discharged for arithmetic operators (bin_computes). Refuted: two reduces with different format strings may be compared by the same text, and then share a variable; so equal texts of comparison are assumed to come from equal codes. Additional arguments: C72."
  },
  {
   "property": "C72",
   "status": "partial",
   "theorems": [
    "Verif.Stmt.C72_group_by_partial",
    "Verif.Stmt.C72_functions_partial",
    "Verif.Stmt.C72_aggregate_partial",
    "Verif.Stmt.C72_several_partial",
    "Verif.Stmt.args_same",
    "Verif.Stmt.Demo.demo_tuple"
   ],
   "note": "Any number of additional arguments, functions and inline expressions in one list. For functions nothing is assumed about code_hash (C72_functions_partial, args_same); inline expressions with equal code_hash are assumed to be the same (C71_refuted_shared). What functions, inline expressions and tuples give for values is a hypothesis. demo_tuple: without initial the fold begins with the tuple, to which f is then applied. c.aggregate: one reduce (C72_aggregate_partial), or any list with the same filter (C72_several_partial); with different filters rows may be lost (C34_refuted)."
  }
 ]
}