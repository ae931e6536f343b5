# Formal model of convtools 0.8.0 in Lean 4

The code base is a code generator: a *conversion* object is turned into Python source text, the text is compiled, and
the compiled function does the work.  The model follows that split: how objects are built and changed, what text is
generated for them, how Python reads the text, and what the code does when it runs.

## Trusted base

* The Lean 4.33.0 kernel.  Axioms: at most `propext`, `Classical.choice`, `Quot.sound` (list at the end).  No `sorry`,
  no own axioms, no `native_decide`, no `bv_decide`, no `implemented_by`, no `unsafe`.  Concrete witnesses use
  `decide +kernel` (evaluation by the kernel, no compiler).
* The reading of `/repo/src/convtools/*.py` as the definitions in `lean/Verif/*/Model*.lean`.  Every definition cites
  the lines it stands for.  The Python code was not run.
* The fragment of Python the code relies on, written down as definitions: truthiness, `==`, dict/list/set operations,
  generators, `threading.local`, `str.replace`, `repr` of `str` and `int` (`Text/Spec.lean`, `PyNames`), the lexical and
  expression grammar (`Text/Lex.lean`, `Text/Parse.lean`), evaluation order (`Expr/Model.lean`, `eval`).
* What users plug in is a universally quantified parameter, not an assumption: called functions, overloaded operators
  and their side effects (`Runtime`), random choices (a stream), hashing (an integer per object), thread schedules
  (lists of events), row expressions.

## Layout

Each component `Verif/<X>/` has `Model.lean` (the code, function by function), mostly `Spec.lean` (what is meant, without
the model's helpers), lemma files, and `Props.lean` (property theorems, an `example` beside each, counterexamples).
`lean/Verif.lean` imports all `Props` files.  `seeded/LOG.jsonl` records the mutation tests: wrong programs and the
theorems which failed on them.

## How each part is modelled and proved

| component | code | model | proofs |
|---|---|---|---|
| `Py` | — | Python dicts as association lists, stable sort | list lemmas |
| `RUCache` (C01–C03) | utils.py 10–57 | `get/set/has/_evict` on deque, put-back set and dict; exceptions leave the partial state | invariant over call histories; refinement to a second-chance queue |
| `LineCache` (C04, C05) | base.py 24–40, 101–112 | `populate_line_cache` on top of `RUCache` | invariant over histories; witnesses |
| `Options` (C06–C08) | utils.py 60–128 | heap of option objects, `threading.local` slots, well-bracketed event lists of many threads | simulation by a stack; frame argument per thread |
| `Names` (C09–C11) | base.py 330–388, 889–954 | `gen_name` with a random stream, `_hash_item`, `NaiveConversion`, Python scoping | invariant over request lists; string induction |
| `Signature` (C12, C31) | base.py 404–435, 500–548, 67–68, 115–123 | `get_args`, `get_args_def_code`, the signature check, `__get__` | list and string reasoning |
| `Labels` (C26–C28) | base.py 70–99, 503–512 | calls and generators of one converter as a transition system over the shared `labels_` dict | invariants and simulations over all schedules |
| `Lazy` (C54, C55) | base.py 731–733, 1393–1415, 1487–1501, 1527–1560, aggregations.py 1021–1027 | chained Python generators as suspended loops over an arbitrary state with fuel; the three `filter` methods | equivalence with element-by-element processing, by induction on the chain and on fuel |
| `Heap` (C17, C29, C30, C52, C53, C60, C61) | base.py 265–360, 405–414, 554–579, 735–856, 963–1012, 1392–1533; aggregations.py 865–874, 918, 987–1035, 1062–1117, 1164–1194 | conversion objects as heap nodes; `clone`, `pipe`, `filter`, …; the temporary change made by `gen_converter`, also interleaved; dependencies registered by derivations (`Deps*.lean`) and by code generation of sorted comprehensions | frame reasoning on the heap; an invariant of all reachable heaps (by class and parameters for C52, also by identity for C60) |
| `Agg` (C24, C32–C35) | aggregations.py 552–785, 954–1277 | reduce blocks, their merging by hashes of texts, the group loop, the two-phase aggregate loop with checksum and `break` | induction over rows, merging invariant; `Hash.lean` for the texts |
| `Reducers` (C36–C41) | aggregations.py 48–483, 788–951 | the statement tables transcribed branch by branch, run in the loops of `Agg` | fold = declarative specification |
| `Join` (C43–C47) | joins.py, all | analysis of the condition; hash and nested loops over one-shot or repeatable inputs | refinement to the nested-loop specification |
| `JoinGen` (C59, C63) | joins.py 149–391 | the generators of a join as suspended loops (`_left_joiner`, the generator of left rows with the inner generators it hands out and their late-bound `left_item`, `_add_right_part`), inputs, conversions and the client acting on one arbitrary state; budgets of pulls instead of termination | simulation of the three kinds of generators by one machine, then induction on the budget against nested loops; for the pure code of a condition, refinement to `Join` |
| `JoinNames` (C64, C65) | base.py 303–328, 404–447, 1041–1130, 1508–1545; joins.py 32–148, 167–283, 378–391 | code generation of the parts of a condition with and without the wrapper that names the rows, evaluation of the code in nested scopes; signature and call of the join's converter | induction on conversions against a denotation in which rows are rows everywhere; list and string reasoning on top of C12 |
| `Expr` (C13–C16, C18–C26, C50) | base.py 160–324, 474–592, 601–785, 859–1918; mutations.py | `Conv` → `PyExpr` (`gen`), its text (`render`), `eval` in a state and exception monad over an arbitrary `Runtime`; `den` is the specification | compiler correctness by induction on conversions: `eval (gen c) = den c` |
| `Text` (C48, C49) | the same texts | Python's tokenizer and expression parser as functions on characters; `Parses` | parse of the text = syntax tree of the expression, for all well-formed expressions |
| `Exec` (C51) | the same texts, executed: base.py 164–179, 415–437, 497–592, 938–954, 1308–1327, 1648–1677, 1893–1916 | the whole texts of the converter and of the functions it calls (`Texts.lean`: templates, signature, stages, generators, `tap`), read with layout and statements of `Stmt`; evaluation of what was read in a module (`Globals`): statements, calls with parameters, generators consumed by their callers | read text, run it: exactly one reading, as one function with the parameters expected; same result, labels and effects as `den`; composition of C48 and `Stmt` (text → tree), `same_run` (tree → `eval`, by induction on expressions) and C13 (`eval` → `den`) |
| `Construct` (C62) | aggregations.py 48–92, 272–281, 793–862, 938–944 | the attributes of a `Reduce` object while it is built from the parameters of user and reducer; conversions of `Expr` | case analysis; the pair of a dict reducer against `den` |
| `Inline` (C69) | base.py 1418–1464, joins.py 332–342 | `str.format` on the template (fields, numbering, escapes), the codes of the arguments as given; how codes of conversions are made is in `Expr` | the template is lexed and parsed with names in the place of arguments; substitution of codes for names commutes with lexing (`Inline/Lemmas`) and parsing (`Text/SubstParse`, by induction over the parser), and tokens behind a closed parenthesis do not change what is read (`Text/ParseMore`) |
| `Inline/Operators` (C70) | base.py 601–729, 1133–1171 | the template or class each operator method makes, dunder methods as calls of them; two operands for `or_`, `and_`, `eq` (any number in `Expr`) | the text by `C69_fields`, the reading by `C69_nested_partial` with the templates parsed once for all operands (`template_bare`); formulas by induction; `C70_text` ties `Expr`'s operators to these templates |
| `Stmt/InlineRed` (C71) | aggregations.py 23–42, 116–176, 643–648, 876–914, base.py 1418–1464 | the texts of a reduce with an inline expression, from the codes of its parts | the text is read by `inline_reads` with the template parsed once; renaming the variable in the filled format string by induction over its parts (`put_renamed`); then as C67. Equal `code_hash` is assumed to come from equal codes (`C71_refuted_shared`) |
| `Stmt/ArgsRed` (C72) | aggregations.py 23–42, 116–176, 643–648, 788–914, base.py 1357–1389, 1676–1684 | the texts of a reduce with additional arguments: `f(acc,x,y)`, the filled format string, the tuple `(x,y,)`; no `initial_from_first` | joined codes are read one after the other by induction (`commas_lex`); renaming by induction over the arguments (`commas_renamed`, `inlines_ok`); equal `code_hash` of functions gives equal trees, since the joined text is read in one way (`args_same`); then as C67; several reduces in `c.aggregate`: with the same filter they get their values in the same row (`same_latest`), so C34's condition holds for all rows |
| `Stmt` (C56, C57, C58, C66, C67, C68) | aggregations.py 48–785, 916–945, 1119–1277 | tokenizer with indentation (`Layout`), statement grammar (`Read`), evaluation of statements over Python objects (`Run`: local variables, attributes of objects, lists, sets, dicts on a heap, iterators, `break`); the generated texts character by character (`AggText`, `Template`) | text → lines → statements by rules for each kind of line; run of the statements = `Agg`/`Reducers` by simulation (`Linked`, accumulators represented by heap objects), then C33/C34; C58: the lines compared by `code_hash` are lexed and split at their arguments (`TemplateHash`, `TemplateSame`, `TemplateEqual`); C66: the invariant of the simulation says that no heap object is in two variables; C67: blocks of reduces with functions of the user (`Custom`): their text is read and does what the model of a reduce does, `code_hash` of two such blocks determines function, expression, `initial` and filter, then C33/C34 and an induction give the left fold; C68: the lines of a template, lexed and split at their arguments, are never those of a call without its first argument (`Mixed`) |
| `GroupKeys` (C42) | aggregations.py 1037–1117 | `str.replace` and `in` on texts | textual replacement = structural replacement, then evaluation |

What a theorem name says: `Cnn_…` is a full statement (all inputs, states, executions); `…_partial` is proved under
hypotheses or for a part, its comment says what is missing; `Cnn_refuted_…` is a concrete witness that the code violates
the full claim.

## Status per property

| id | property | status | theorems | note |
|---|---|---|---|---|
| C01 | Recently-used cache stays bounded | proved | `RUCache.C01_bounded`, `RUCache.C01_zero_capacity_raises`, `RUCache.C01_negative_capacity_unbounded` | All capacities: >=1 bounded and exception free, 0 raises, negative never evicts. max_size constant; lawful key equality. |
| C02 | Recently-used cache is a map with announced evictions | proved | `RUCache.C02_map_with_announced_losses` | Against a client-side expectation computed from calls and announced evictions only. |
| C03 | Recently-used cache gives touched entries a second chance | proved | `RUCache.C03_refines_clock`, `RUCache.C03_victim` | Observational refinement of an independent second-chance queue. |
| C04 | Source-line cache is bounded and consistent with the LRU | proved | `LineCache.C04_linecache_consistent` | Invariant over all populate/has/evict histories. |
| C05 | A published file name shows its own converter's code | partial | `LineCache.C05_last_file_partial`, `LineCache.C05_own_code_partial` | The code violates the full claim (three witnesses); proved under the stated hypotheses. |
| C06 | Options contexts nest like a stack | partial | `Options.C06_stack_partial`, `Options.C06_depth_two_partial` | The single prev_options slot breaks nesting of depth 3; proved for histories without two consecutive exits that end inside a context. |
| C07 | Leaving the outermost options context restores the defaults | proved | `Options.C07_defaults_restored` | Balanced histories. |
| C08 | Options contexts of different threads are isolated | proved | `Options.C08_thread_isolation` | Every interleaving of threads. |
| C09 | Generated names are unique and stable | proved | `Names.C09_names_unique`, `Names.C09_names_stable`, `Names.C09_name_shape` | Every request sequence and random stream. |
| C10 | Objects passed by value reach the generated code intact | partial | `Names.C10_intact_partial` | Violated for equal-hash objects, shadowed builtins and int/str subclasses; proved otherwise. |
| C11 | Identifier prefixes derived from callables are identifiers | proved | `Names.C11_identifier`, `Names.C11_identifier_kept`, `Names.C11_idempotent` | All strings. |
| C12 | Converter signature contains exactly the needed arguments | proved | `Signature.C12_default_signature`, `Signature.C12_both_flags`, `Signature.C12_explicit_signature` | The claim as stated is proved; the converse (an accepted signature binds the names) is refuted by C12_refuted_word_is_parameter. |
| C13 | Expression conversions compile to code with the specified meaning | partial | `Expr.C13_expressions_partial`, `Expr.C13_checked_partial` | Compile correctness for the whole fragment on arbitrary runtimes except () and set(), which are miscompiled; input arguments must not be named like generated variables. |
| C14 | Top-level pipes run each stage once, in order | proved | `Expr.C14_pipe_stages`, `Expr.C14_stages_in_order` | Any chain length; stages pass a check on their form which all expressions of C13 pass. |
| C15 | Nested pipes compute the composition | partial | `Expr.C15_once_partial`, `Expr.C15_pure_partial` | Holds if the second stage uses its input exactly once and first, or if the first stage is pure; refuted when the second stage returns before it comes to its input. |
| C16 | Nested pipes run the first stage exactly once | partial | `Expr.C16_once_partial`, `Expr.C15_once_partial` | The first stage is inlined at every mention; refuted for two mentions and for a text contained in a constant. |
| C17 | Piping is associative and does not touch its operands | partial | `Heap.C17_pipe`, `Heap.C17_associative_partial` | Exact behaviour of pipe on the object heap; the length limit is checked per operand only, so longer chains can be built and the bracketings differ at the limit. |
| C18 | Conditional conversion picks the branch by the condition | partial | `Expr.C18_if_partial`, `Expr.C18_input_once_partial` | Refuted: condition not reaching its input (KeyError), condition mentioning its input twice, inputs whose truth cannot be tested. |
| C19 | Simple-input check is sound | proved | `Expr.C19_text`, `Expr.C19_no_call`, `Expr.C19_no_effects` | input_is_simple admits exactly names, constants and label-free accesses whose evaluation calls nothing and changes nothing. |
| C20 | Lookup with default | partial | `Expr.C20_default_partial` | Input arguments in indexes raise NameError. |
| C21 | Logical conversions short-circuit with Python values | proved | `Expr.C21_and_or`, `Expr.C21_eq`, `Expr.C21_value`, `Expr.C21_eq_value` | Any number of arguments; effects, short-circuiting and exceptions included. |
| C22 | Optional collection items | partial | `Expr.C22_effects`, `Expr.C22_items_partial`, `Expr.C22_pairs_partial`, `Expr.C22_default`, `Expr.C22_skip_value`, `Expr.C22_skip_if`, `Expr.C22_keep_if`, `Expr.C22_rejected` | Lists, tuples and sets whatever items and conditions do; dicts with pure parts; refuted when both skip_if and keep_if are given (keep_if wins silently). |
| C23 | Comprehensions map and filter in order | proved | `Expr.C23_effects`, `Expr.C23_items_partial`, `Expr.C23_pairs_partial`, `Expr.C23_dict_partial`, `Expr.C23_raises` | C23_effects: whatever conditions and items do to the state, element by element, including what raises (every run has a derivation: collects_total); the theorems named partial give the closed form for items without effects. For conversions compiled right (hypothesis ok: C13). Generator comprehensions: C54. |
| C24 | Sorted comprehensions are stable permutations | partial | `Expr.C24_list_partial`, `Expr.C24_tuple_partial`, `Expr.C24_dict_partial`, `Agg.C24_group_by` | Sorted list/tuple/dict comprehensions; refuted for duplicate keys of a dict. group_by(...).sort is proved for all keys. |
| C25 | tap mutates in place, in order, and returns the same object | proved | `Expr.C25_tap` | All kinds of mutations, with effects and exceptions. |
| C26 | Labels return the most recently labelled value | partial | `Labels.C26_at_every_moment`, `Labels.C26_reads_latest_partial`, `Expr.C26_labelling_partial`, `Expr.C26_reading`, `Expr.C26_add_labels_partial` | Reads give the latest value; the labelling code is right unless a label conversion labels the own name again, a label has the generated name, or a label conversion ends in c.this(), which is dropped; a generator inside a plain result reads its labels too late. C26_at_every_moment says exactly what any client sees at any time. |
| C27 | No label survives a finished call | partial | `Labels.C27_labels_dropped_partial`, `Labels.C27_observed_partial` | A generator dropped before its first next leaves its labels, so does one inside a plain result; every other way to end a use clears them, in any state. |
| C28 | Concurrent and interleaved uses of one converter are independent | partial | `Labels.C28_no_labels_partial`, `Labels.C28_sequential_partial` | Refuted by schedules; proved for label-free code under all schedules and for sequential uses. |
| C29 | Compiling does not change the conversion | partial | `Heap.C29_success_partial`, `Heap.C29_codes_partial`, `Heap.C29_grown_partial`, `Heap.C29_failure_partial` | Successful sequential compilation changes nothing if generating the code of a stage does not; if it only adds dependencies (sorted comprehensions), only dependencies are added; a failed one removes exactly one stage link; concurrent compilation can corrupt both code and conversion. |
| C30 | Deriving a conversion does not change the original | partial | `Heap.C30_originals_kept_partial` | Holds for all derivations except Reduce.filter, CachingConversion.add_label and GroupBy.aggregate, which mutate existing objects. |
| C31 | A converter used as a method receives its instance | partial | `Signature.C31_method_instance_partial` | Falsy instances receive the class instead (instance or cls). |
| C32 | group_by yields one row per distinct key, in first-seen order | partial | `Agg.C32_one_per_key`, `Agg.C32_output_partial` | Whatever the reduces and the result expression do; keys compared with ==. Refuted without any reduce: the code does not compile. |
| C33 | Each reduce sees exactly its group's rows | partial | `Agg.C33_group_by_partial`, `Reducers.C33_builtins_partial` | Equivalence with the per-group, per-reduce specification under hypotheses the code can violate (hash clashes: C35, initialisation: C33_refuted_initial). |
| C34 | Each reduce of c.aggregate sees all rows | partial | `Agg.C34_aggregate_partial`, `Agg.C34_unconditional_partial`, `Agg.C34_first_row_partial` | Refuted: the two-phase loop of aggregate skips rows for blocks that initialise late. |
| C35 | Sharing of identical reduces is invisible | partial | `Agg.C35_sharing_partial` | Shared slots are right when equal hashes mean equal reduces; the hash of the code text violates that in both modes (inline expressions, constants and filters containing the name of the variable; digits in c.aggregate). For built-in reducers in group_by without such constants it holds: C58. |
| C36 | Sum / SumOrNone | proved | `Reducers.C36_sum`, `Reducers.C36_sum_or_none` | Values are integers, None or falsy objects; every filter, default and row list. |
| C37 | Max / Min / MaxRow / MinRow | proved | `Reducers.C37_max`, `Reducers.C37_min`, `Reducers.C37_max_row`, `Reducers.C37_min_row` | Non-None values comparable by a strict weak order, as the claim requires. |
| C38 | Count / CountDistinct / First / Last / Array / ArrayDistinct | proved | `Reducers.C38_count`, `Reducers.C38_count_distinct`, `Reducers.C38_first`, `Reducers.C38_last`, `Reducers.C38_array`, `Reducers.C38_array_distinct` | All row lists, filters and defaults. |
| C39 | Dict reducers are per-key reductions | proved | `Reducers.C39_dict_last`, `Reducers.C39_dict_first`, `Reducers.C39_dict_array`, `Reducers.C39_dict_array_distinct`, `Reducers.C39_dict_count_distinct`, `Reducers.C39_dict_sum`, `Reducers.C39_dict_sum_or_none`, `Reducers.C39_dict_max`, `Reducers.C39_dict_min`, `Reducers.C39_dict_count` | Dict and DictLast are the same statements. |
| C40 | A reduce without rows yields its default, never an internal object | partial | `Reducers.C40_default`, `Reducers.C40_no_sentinel_partial`, `Reducers.C40_builtins` | A custom reduce with initial and no default shows the internal _none object on empty input. |
| C41 | initial is the starting value of the fold | partial | `Reducers.C41_custom_partial`, `Reducers.C41_last_partial`, `Reducers.C41_sum_or_none_partial` | Holds for custom functions, Last and SumOrNone; the other statement reducers do not use initial as a starting value. |
| C42 | Group keys in the result are the group's keys | partial | `GroupKeys.C42_value_partial`, `GroupKeys.C42_rejected_partial`, `GroupKeys.C42_key_partial`, `GroupKeys.C42_other_partial`, `GroupKeys.C42_collection_partial` | The textual replacement does what it should for keys that are lookups by constants and items whose names and constants do not contain row_; refuted for constants containing row_, attribute keys which are prefixes of other attributes, and constant keys. |
| C43 | Join condition analysis preserves the condition | proved | `Join.C43_split_preserves` | All conditions built of and_, == and other conversions, nested in any way; keys with an equivalence ==. |
| C44 | Inner join | partial | `Join.C44_inner_partial` | Refuted without an equality of keys when the right side is a generator or iterator (exhausted after the first left row), and for guarded conversions that raise. |
| C45 | Left join | partial | `Join.C45_left_partial` | Refuted when a conjunct on neither row is false, and as for C44. |
| C46 | Right join | partial | `Join.C46_right_partial` | Right joins exchange the hash functions of the sides and drop right rows by filters on the right row. |
| C47 | Outer join | partial | `Join.C47_outer_partial` | Proved also for iterators; refuted for an unmatched None and for a false conjunct on neither row. |
| C48 | Generated expressions keep their operator structure | partial | `Text.C48_expression`, `Text.C48_conversion_partial`, `Text.C48_operators_partial`, `Text.C48_stages_partial`, `Text.C48_assignment` | Texts lexed and parsed with Python's grammar give back the operator tree, for every nesting; refuted for lookups on number constants and labels with quotes. |
| C49 | Attribute access by literal or dynamic name agree | partial | `Text.C49_choice`, `Text.C49_text_partial`, `Text.C49_value` | The regular expression picks exactly string constants that look like identifiers; refuted for Python keywords (c.attr('class') is a syntax error). |
| C50 | ensure_conversion covers every Python object | partial | `Expr.C50_accepted`, `Expr.C50_mutations`, `Expr.C50_meaning_partial` | Objects of any nesting, slices too; set() becomes {} and () is a syntax error. |
| C51 | The text of a converter, run by Python, does what the conversion means | partial | `Exec.C51_text_partial`, `Stmt.Grammar.source_program` | The complete texts of a converter and of the functions it calls (def lines, indentation, try/except, if/yield, return), read by the grammar of statements in exactly one way and run in a module, give what den says; partial where C13 and C48 are, and names must not clash with those of the module. |
| C52 | Registered dependencies cover everything a conversion uses | partial | `Heap.C52_covered_partial`, `Heap.C52_args_partial` | By an invariant over all programs of derivations; refuted for conversions as sort keys, for add_label and Reduce.filter on objects already in use; the converse is refuted too (replaced args stay dependencies). |
| C53 | Labelling bookkeeping of conversion objects | partial | `Heap.C53_add_label_partial`, `Heap.C53_labels_partial`, `Heap.C53_numbers_partial` | A GetItem without indexes is taken for the labelled value even if it has an input of its own (refuted); numbers are distinct as long as the counter does not start again (2^30). |
| C54 | Generator comprehensions pull on demand | proved | `Lazy.C54_on_demand`, `Lazy.C54_create`, `Lazy.C54_drained`, `Lazy.C54_chain` | Equivalence of chained generators with element-by-element processing, for every number of next calls. |
| C55 | filter keeps exactly the items which pass | partial | `Lazy.C55_filter`, `Lazy.C55_method`, `Lazy.C55_comprehension_partial`, `Lazy.C55_unfiltered` | A second filter replaces the condition of the first (refuted); filter of comprehensions takes no cast. Conditions without effects. |
| C56 | Generated text of aggregations does what the reduces say | partial | `Stmt.C56_aggregate_partial`, `Stmt.C56_group_by_partial` | Lexer, indentation, grammar (what is read is derived by its rules: Grammar.source_program) and evaluation of statements, for every list of reduces; reduces with equal hashes must be equal (C35), and the two-phase loop of aggregate must not skip rows (C34). Refuted: constants containing the name of a variable, c.aggregate of sums of items 1 and 2, input arguments named like variables of the template. |
| C57 | Built-in reducers from their generated text | proved | `Stmt.C57_aggregate`, `Stmt.C57_group_by` | All 23 templates, from the text to the result; example: a filtered sum over rows of two numbers (Stmt/Demo.lean). |
| C58 | Shared accumulators in the generated text of group_by | proved | `Stmt.C58_group_by`, `Stmt.same_hash` | The texts compared by code_hash are read back: equal texts have equal reducers, argument trees and filters. Example with three reduces sharing two variables: Stmt/Demo2.lean. |
| C59 | Joins are loops whose body is the client's | proved | `JoinGen.C59_stream`, `JoinGen.C59_on_demand`, `JoinGen.C59_drained`, `JoinGen.C59_ended` | Three nested suspended generators against plain nested loops, on an arbitrary state; labels keep their values (C26-C28), iter has no effects, and the conversion of a left row to its key runs once (chains of lookups are repeated by If, C19). |
| C60 | Every reduce of an aggregation's result has a variable | partial | `Heap.C60_partial` | By identity, for all programs that copy no pipe with a reduce as an earlier stage; the example pipes a reduce once. Refuted: c.reduce(..).pipe(a).pipe(b), c.reduce(..).item(k).pipe(a) and c.reduce(..).pipe(c.list_comp(..)).sort() lose the variable (KeyError). |
| C61 | An aggregation's result is generated with all its parts | partial | `Heap.C61_partial`, `Heap.C61_constructed` | For results that are not collections with an input. Refuted: the input of a piped dict, list, tuple or set is dropped. |
| C62 | A reduce is made of what the user gave it | partial | `Construct.C62_plain`, `Construct.C62_dict_partial`, `Construct.C62_dict_refuses` | All parameters of reduces; dict reducers with a pair that is not the end of a pipe. Refuted: the first stages of a piped pair are lost. |
| C63 | Uses of one join are independent | partial | `JoinGen.C63_at_once_partial`, `JoinGen.C63_sequence_partial`, `JoinGen.C63_ended` | Uses whose result is consumed at once, after anything and among any pending ones. Refuted for generators made before they are consumed (c.list_comp(c.join(..))) and for two consumed in turns: rows are paired with the right side of another use, or KeyError. |
| C64 | Rows in the condition of a join | partial | `JoinNames.C64_inner_loop`, `JoinNames.C64_key_partial`, `JoinNames.C64_filter_partial` | Inner loop: all parts. Keys and filters: rows mentioned where the input is still the row. Theorems speak of parts that do not raise (call by name, see C15). Refuted: c.LEFT in a later stage of a pipe in a key or filter is the result of the earlier stage; arguments named left_item/right_item are the rows. |
| C65 | Arguments of a join | partial | `JoinNames.C65_partial` | All arguments not named left or right; those make the converter of the join a SyntaxError. |
| C66 | Accumulated objects are not shared | partial | `Stmt.C66_aggregate_partial`, `Stmt.C66_group_by_partial`, `Stmt.C66_builtins_partial` | Objects on the heap of the generated program, for all reduces with different code hashes and all groups. Refuted for reduces written twice: they share one variable, so that both results are the same list. Values of the user kept as they are (First, Last, items of lists) are shared with the rows, of course. |
| C67 | Functions of the user are folded from the left | partial | `Stmt.C67_group_by_partial`, `Stmt.C67_aggregate_partial` | group_by: any list of reduces with functions; c.aggregate: one. Inline expressions: C71, additional_args: C72. Refuted: with initial, without default and with nothing to reduce the result is the internal marker of variables without a value. |
| C68 | Built-in reducers and functions of the user do not disturb each other | partial | `Stmt.C68_group_by_partial`, `Stmt.C68_aggregate_partial`, `Stmt.mixed_differ` | Any mixed list of built-in reducers (without initial) and functions in group_by; nothing assumed about code_hash. No additional_args, no inline expressions. For c.aggregate: reduces with different code_hash, each with a value after the first row (C34_refuted and C35_refuted_aggregate show why). |
| C69 | Arguments of inline expressions are operands | partial | `Inline.C69_fields`, `Inline.C69_fields_mixed`, `Inline.C69_operands_partial`, `Inline.C69_nested_partial`, `Inline.C69_conversions_partial`, `Inline.C69_left_join_partial` | The text for all templates and arguments (C69_fields). How it is read: templates whose fields stand where operands are expected, within the grammar of Text/Parse (one `for` per comprehension, so the template of inner joins is missing). Refuted: a lookup or call behind a field filled with a negative number; variables of comprehensions in the template capture names in arguments. |
| C70 | Operators on conversions are Python's operators | partial | `Inline.C70_operators_partial`, `Inline.C70_words`, `Inline.C70_unary`, `Inline.C70_formula_partial`, `Inline.C70_text`, `Inline.C70_text_one` | All operator methods of BaseConversion and formulas of any size over any operands; C70_text ties the operators of Verif/Expr to the templates of the code. Refuted: a lookup in a negative number. |
| C71 | Reduces with inline expressions are left folds of what the expressions compute | partial | `Stmt.C71_group_by_partial`, `Stmt.C71_aggregate_partial` | Format strings which are filled with two arguments and whose fields stand apart from names; what a format string computes is a hypothesis, which is discharged for arithmetic operators (bin_computes). Refuted: two reduces with different format strings may be compared by the same text, and then share a variable; so equal texts of comparison are assumed to come from equal codes. Additional arguments: C72. |
| C72 | Reduces with additional arguments are left folds with all their arguments | partial | `Stmt.C72_group_by_partial`, `Stmt.C72_functions_partial`, `Stmt.C72_aggregate_partial`, `Stmt.C72_several_partial`, `Stmt.args_same`, `Stmt.Demo.demo_tuple` | Any number of additional arguments, functions and inline expressions in one list. For functions nothing is assumed about code_hash (C72_functions_partial, args_same); inline expressions with equal code_hash are assumed to be the same (C71_refuted_shared). What functions, inline expressions and tuples give for values is a hypothesis. demo_tuple: without initial the fold begins with the tuple, to which f is then applied. c.aggregate: one reduce (C72_aggregate_partial), or any list with the same filter (C72_several_partial); with different filters rows may be lost (C34_refuted). |

## Discrepancies found in the code

Each is proved with a concrete witness in the model.

| theorem | what happens |
|---|---|
| `C05_refuted_cleared` | C05 is violated after foreign code cleared `linecache`: the names stay known and the sources are not published again. |
| `C05_refuted_collision` | C05 is violated by the code: file names may collide between converters (they contain only a short random suffix), and `populate_line_cache` skips names it already knows. The second converter's stack traces then show the first converter's code. |
| `C05_refuted_self_eviction` | C05 is violated even without collisions: when all other entries were recently used, a file of the converter evicts an earlier file of the same converter (shown for capacity 2). |
| `C06_refuted` | C06 is violated by the code. Three nested contexts: after leaving the two inner ones, the program is still inside the first context, where it had set option 0 to 1, but reads the default 0: `_ctx` has a single `prev_options` slot. |
| `C10_refuted_closures` | C10 is violated: two closures of one factory (same code object, hence the same `_hash_item`) get one name, and the last one wins for both. |
| `C10_refuted_floats` | C10 is violated: the floats `-1.0` and `-2.0` (both of Python hash `-2`). |
| `C10_refuted_shadowed_builtin` | C10 is violated: an argument named like a builtin shadows it (`c.call_func(len, c.input_arg("len"))`). |
| `C10_refuted_subclass` | C10 is violated: an instance of a subclass of int or str (e.g. an enum member whose repr is `<Color.RED: 1>`) is emitted as its repr text: no evaluation of a *text* can return the object. |
| `C12_refuted_word_is_parameter` | Discrepancy (words are not parameters): an accepted explicit signature need not *declare* the needed argument; here `y` only occurs as a default value, so the generated code raises NameError when called. (And nothing requires `data_` itself to be declared.) |
| `C13_refuted_empty_set` | C13 is violated by `c.set()` (and `ensure_conversion(set())`): the code `{}` makes a dict. |
| `C13_refuted_empty_tuple` | C13 is violated by `c.tuple()` (and `ensure_conversion(())`): the code `(,)` is a syntax error. |
| `C15_refuted` | C15 is violated: a first stage which raises is not evaluated, if the second stage returns before it comes to its input. `c.list(boom.pipe(c.and_(False, c.this())))` returns `[False]`. |
| `C16_refuted_text` | C16 is violated: the first stage is not called at all, if its text is in the text of the second stage, even as a part of a string constant (302-324). |
| `C16_refuted_twice` | C16 is violated: the first stage is called as often as the second stage mentions its input. |
| `C17_refuted_limit` | C17, the limit is not enforced: with `max_pipe_length = 2` a chain of three stages is built by one bracketing without any exception, while the other bracketing raises. |
| `C18_refuted_key_error` | C18 is violated: the input is saved by the code of the condition; if the condition does not come to its input, the branches raise `KeyError`. |
| `C18_refuted_truth` | C18 is violated: a branch which does not mention the input gets code testing the truth of the input. |
| `C18_refuted_twice` | C18 is violated: an input which is not simple is computed again for every mention in the condition. |
| `C20_refuted_args` | C20 is violated: an input argument as an index is not passed to the helper function; the lookup raises `NameError`. |
| `C22_refuted_both` | C22 is violated with both `skip_if` and `keep_if`: only `keep_if` counts, an item whose `skip_if` holds is kept. |
| `C24_refuted_dict` | C24 is violated by `dict_comp(...).sort()` when keys occur several times: the sorted dict maps 1 to "b", the unsorted one to "a". |
| `C26_refuted_auto` | C26 is violated by a label which happens to have the generated name of the conversion. |
| `C26_refuted_dropped` | C26 is violated by a label whose conversion ends in `c.this()`, like `c.item("a").pipe(c.this())`: it is taken for `c.this()`, and the label gives the labelled value instead. |
| `C26_refuted_held` | C26 is violated by results with generators inside, e.g. a tuple of which one item is labelled and another is a `c.generator_comp` reading the label: labels are dropped when the tuple is returned, so the generator raises when it reads the label. |
| `C26_refuted_own_label` | C26 is violated if a further label's conversion labels the name of the labelled conversion again: the conversion does not return its own value, `1`, but `2`. |
| `C27_refuted` | C27 is violated: the call labels a value and returns a generator, which the client drops without starting it; the next call of the converter still sees the label. |
| `C27_refuted_held` | C27 is violated by results with generators inside: the generator labels when it is consumed, after the clean-up of its call, and nothing cleans up after it; the next call sees the label. |
| `C28_refuted_generators` | C28 is violated: two generators of one converter, consumed alternately; the second call overwrites the label of the first, whose client then gets a value it would not get alone. |
| `C28_refuted_threads` | C28 is violated for plain calls running in two threads: the first call finishing drops the label the other one is about to read, so the other raises. |
| `C29_refuted_failure` | C29 is violated by failures: compiling the chain `item -> bad` fails in the second stage; afterwards the chain of the conversion consists of `bad` alone: the first stage is lost. |
| `C29_refuted_sorted` | C29 is violated by sorted comprehensions: `c.list_comp(..).sort(key=c.input_arg("f"))` (address 2, the argument is address 0). Compiling it registers the key as a dependency: the argument is not among the dependencies — hence not in the signature — the first time, but it is when the same conversion is compiled again. Each compilation adds dependencies. |
| `C29_refuted_threads` | C29 is violated by concurrent compilation: two threads compile the same two-stage conversion; the second one sees the chain while the first one has removed the input temporarily. It produces the code of the last stage only, and in the end the first stage is lost for good. |
| `C30_refuted_add_label` | C30 is violated by `CachingConversion.add_label`: a labelled conversion `k` (address 3) is piped further, which clones it; a label added to the original afterwards shows up in the piped conversion (address 5 is the first stage of the result) because both share one dict. |
| `C30_refuted_aggregate` | C30 is violated by `GroupBy.aggregate`: it registers the reducer as a dependency of the conversion it is called on, so everything aggregated from the same `group_by` later on inherits the input arguments of this reducer. |
| `C30_refuted_reduce_filter` | C30 is violated by `Reduce.filter`: the reduce it is called on is changed itself. |
| `C31_refuted` | C31 is violated: exactly the falsy instances (e.g. of a class with `__len__` returning 0) are replaced by the class. |
| `C32_refuted_no_reduces` | C32 is violated by the code without reduces: `c.group_by(c.item(0)).aggregate(c.item(0))` makes a class with an empty method, which is a syntax error; no list of keys comes out. The same for `c.aggregate(c.naive(...))`. |
| `C33_refuted_initial` | C33 refuted. `First` with an `initial` never sets its variable, and it decides the starting branch of the block it is merged into: `Count` beside it is 1 for a group of three rows. |
| `C34_refuted` | C34 is violated by the code. `c.aggregate((Max(first), Max(second)))` over `[(None, 5), (1, 7)]`: the second row completes the checksum in the first block, `break` skips the second block for that row, and the second maximum is 5 instead of 7. |
| `C35_refuted_aggregate` | C35 is violated by the code in `c.aggregate`. `c.reduce(Sum, c.item(1))` and `c.reduce(Sum, c.item(2))` as the first and second reduce: their flags are 1 and 2, `code_hash` removes all digits `1` from the first code and all digits `2` from the second, the hashes coincide and the second reduce reads the sum of the first field. |
| `C35_refuted_constant` | C35 is violated for user constants: `c.reduce(Array, "agg_data_.v0")` and `c.reduce(Array, "")` in a `group_by`. `code_hash` removes the name of the variable from the constant as well; both reduces share a variable, which collects the first constant only. |
| `C35_refuted_filter` | C35 is violated for filters with constants containing the name of the variable. |
| `C35_refuted_group_by` | C35 is violated by the code in `group_by` as well. `code_hash` removes the accumulator's name, so `c.reduce(c.inline_expr("{0}-{1}"), c.item(0), default=0)` and `c.reduce(c.inline_expr("-{1}"), c.item(0), default=0)` have the same hash. |
| `C40_refuted` | C40 refuted. `c.aggregate(c.reduce(lambda a, b: a + b, c.item(0), initial=5))` of no rows is neither 5 nor a default but the internal `_none` object. |
| `C41_refuted_accumulators` | C41 refuted. `Sum`, `Count`, `Array`, ... with any `initial` raise a type error on the first row, for all rows and expressions. |
| `C41_refuted_first` | C41 refuted. `First` with an `initial` ignores both it and the rows. |
| `C41_refuted_max` | C41 refuted. `Max` with `initial=5` of 3 and 4 is `None`, not 5. |
| `C42_refuted_attribute` | The row has a field `ab`, which is not the key `a`; the result mentions it, is accepted, and reads a variable which does not exist. |
| `C42_refuted_changed` | With the whole row as the key (`c.this()`) such a constant becomes another constant. |
| `C42_refuted_constant` | A constant (or a key of the resulting dict) with `row_` as a part of its text is rejected, although no field of the rows is mentioned. In `aggregate` too, where there are no keys. |
| `C42_refuted_constant_key` | A constant key before a lookup by the same constant: the second key is rejected in the result. |
| `C44_refuted_generator` | C44 fails in general: with a filter on the right rows and no equality of keys, the right rows are a generator, which is exhausted after the first left row. |
| `C44_refuted_guard` | The order of evaluation changes: a join raises although its condition raises for no pair, since the filter guarded by an earlier conjunct is evaluated for all left rows. |
| `C44_refuted_iterator` | Also with no condition at all, when the right input is an iterator. |
| `C45_refuted_generator` | C45 fails in general: with a filter on the right rows and no equality of keys, only the first left row is matched. |
| `C45_refuted_prefilter` | C45 fails in general: when a conjunct on neither row is false, left rows are lost. |
| `C46_refuted_filters` | C46 fails in general: conjuncts on the right row alone remove right rows. |
| `C46_refuted_hashers` | C46 fails in general: the hash keys of the two sides are exchanged. |
| `C47_refuted_none` | C47 fails in general: an unmatched right item `None` is lost when a left row is unmatched. |
| `C47_refuted_prefilter` | C47 fails in general: when a conjunct on neither row is false, all rows are lost. |
| `C48_refuted_label` | A label with a quote in its name: `c.label("it's")`. |
| `C48_refuted_negative` | The full statement of C48 is false: an index behind a negative constant is read as an index of the positive one. `c.naive(-1).item(0)` becomes `-1[0]`. |
| `C48_refuted_number` | The text of an attribute of a number is no expression: `c.naive(5).attr("real")` becomes `5.real`. |
| `C49_refuted_keyword` | The full statement of C49 is false: `c.attr("class")` and `c.attr("None")` are no expressions. |
| `C50_refuted_empty_set` | C50 is violated by empty sets: the value is an empty dict. |
| `C50_refuted_empty_tuple` | C50 is violated by empty tuples: the code is a syntax error. |
| `C52_refuted_exact` | The converse of C52 is violated: dependencies are never removed. `f.pass_args(x)` (address 3) followed by `.pass_args(y)` (address 4) uses `y` (address 2) only, but still depends on `x` (address 1): if `x` is an input argument, the converter requires it for nothing. |
| `C52_refuted_late_filter` | C52 is violated by late filters: a reduce (address 0) is used in another conversion (address 2), then `Reduce.filter` is called on it: the user of the reduce uses the condition (address 1) without depending on it. |
| `C52_refuted_late_label` | C52 is violated by late labels: a labelled conversion (address 4) is piped further (result 6, clone of the labelled one: 5), then the original gets another label. The dict is shared, so the piped conversion evaluates the new label's conversion (address 3) without depending on it. |
| `C52_refuted_sort_key` | C52 is violated by sort keys: `c.list_comp(..).sort(key=c.input_arg("f"))` (address 2) uses the argument (address 0) but does not depend on it: the argument is missing in the signature. |
| `C53_refuted_this` | C53 is violated by conversions ending in `c.this()`: the label `x` of a value is given the conversion `c.item("a").pipe(c.this())` (address 3, first stage at 2), which is not the identity, but the label stands for the labelled value itself. |
| `C55_refuted_cast` | C55 is violated by the argument `cast` of `filter`: it is accepted for every conversion but comprehensions, although filtering a conversion makes a comprehension: `c.this().filter(p).filter(q, cast=list)` raises `TypeError`. |
| `C55_refuted_twice` | C55 is violated by filtering twice: `c.filter(p).filter(q)` forgets `p`, as the second call is the method of the comprehension made by the first and replaces its condition. |
| `C56_refuted_aggregate` | C56 is violated in `c.aggregate`: the sum of the items 2 of the rows is the sum of the items 1, if that is the first reduce and the items 2 the second one (C35). |
| `C56_refuted_arg` | C56 is violated for input arguments named like the variables of the template: the sum of `c.input_arg("x")` over two rows is twice the argument, the sum of `c.input_arg("checksum_")` is 1. |
| `C56_refuted_constant` | C56 is violated for user constants which look like the variable of the reduce: after the second reduce has been found to be the first one, the third one is renamed from `v2` to `v1`, and the constant in it as well. |
| `C60_refuted_method` | C60 is violated by pipes from parts of reduces: `c.reduce(..).item(..)` has the reduce (address 1) as its input; `c.reduce(c.ReduceFuncs.MaxRow, ..).item(..).pipe(..)` (address 6) copies both, and the copy (address 5) of the reduce has no variable. |
| `C60_refuted_sort` | C60 is violated by sorted and filtered comprehensions of reduces: `c.reduce(..).pipe(c.list_comp(..)).sort()` copies the reduce as well. |
| `C60_refuted_two_pipes` | C60 is violated by reduces that are piped twice: in `c.aggregate(c.reduce(..).pipe(c.list_comp(..)).pipe(c.list_comp(..)))` the second `pipe` copies the whole first pipe, the reduce included, but not the registered dependencies: the reduce the result (address 7) contains (address 6) has no variable, `_reduce_id_to_var` raises `KeyError`. |
| `C61_refuted_piped_collection` | C61 is violated by collections that are piped into: in `c.aggregate(c.reduce(..).pipe({..: c.list_comp(..)}))` the result (address 5, the dict) uses the reduce (address 4), but only the items of the dict (address 2) are generated: they are applied to the row instead of the reduced value. |
| `C62_refuted_piped` | C62 is violated by pairs at the end of a pipe: `c.reduce(c.ReduceFuncs.Dict, c.item(1).pipe((c.item(0), c.item(1))))` is accepted, but the first stage is lost: the row `("a", ("k", "v"))` is taken as the pair `("a", ("k", "v"))` instead of `("k", "v")`. |
| `C63_refuted_later` | C63 is violated when generators of one join are made before they are consumed, as by `c.list_comp(c.join(c.item(0), c.item(1), ...))`: the first generator pairs its left rows with the right rows of the second call (`11` with `31` instead of `21`), and when it has ended the second one has lost its right rows (`KeyError`). |
| `C63_refuted_outer` | C63 is violated for outer joins, even if the left side of the second use is empty: when the first generator has ended, the second one looks for its right rows, which are gone (`KeyError` instead of `(None, 32)`); the second generator of a left join just ends. |
| `C63_refuted_zip` | C63 is violated also for `zip(join_a, join_b)` and left joins: the first generator, whose only row has a partner, gives it with a partner of the other call, or with `None`. |
| `C64_refuted_argument` | C64 is violated for arguments named like the variables of the generated loops: `c.input_arg("left_item")` in a condition on both rows is the left row. |
| `C64_refuted_filter` | C64 is violated by filters, depending on the kind of the join: `c.LEFT.item(0).pipe(c.LEFT.item(1) > c.this())` on rows of pairs holds of the left row in a left join, and is computed of something else in an inner join. |
| `C64_refuted_key` | C64 is violated by keys: in the second stage of a pipe `c.LEFT` is not the row but the result of the first stage, so that the key of the row `(1, 2)` raises instead of being `3`. |
| `C65_refuted_left` | C65 is violated by an argument named `left`: the signature declares `left` twice, which Python refuses (`SyntaxError`: duplicate argument). |
| `C66_refuted` | `{"a": c.reduce(Array, c.item(1)), "b": c.reduce(Array, c.item(1))}` and `c.reduce(Array, c.item(0))`: the two equal reduces have the variable `v0`, whose list is in both results: C66 is violated by reduces with equal codes, which the user has written twice. The third one and the ones of other groups have other lists. |
| `C67_refuted_sentinel` | C67 is false for a reduce with `initial` and without `default`: if there is nothing to reduce, the generated function returns the object by which the generated code marks variables without a value, neither `initial` nor an exception. |
| `C69_refuted_capture` | Arguments are operands but not closed: a variable of the template captures a name of an argument, so different inline expressions have the same text (`c.inline_expr("[x + {0} for x in {1}]").pass_args(c.input_arg("x"), c.this())`). |
| `C69_refuted_negative` | The full statement is false: a lookup behind a negative number, `c.inline_expr("{0}[0]").pass_args(-1)`. |
| `C70_refuted_negative` | The full statement is false for a lookup in a negative number: `c.naive(-2)[c.this()]` is `-(2[data_])`. |
| `C71_refuted_shared` | C71 without the hypothesis about texts is false: both format strings are read as what they say and have their fields apart, but the two reduces are compared by the same text, so they share a variable, and `group_by` gives the first of them in the place of the second. |

Seen while reading, not claimed as theorems: `join()` always compiles with `debug=True`; `GeneratorComp.sort` raises
`NotImplementedError`; a falsy `key` object given to `sort` means no sorting; the `default` of a lookup is evaluated
even when it is not needed; the value of an optional item is evaluated twice; `Sum` over lists changes the list of the
first row.

## What is modelled and what is not

Modelled: all of `utils.py`, `joins.py`, `mutations.py`; in `base.py` the converter object, conversion objects, all
code-generating methods listed above and `ensure_conversion`; in `aggregations.py` the reducers, reduce blocks, both
loops, and the treatment of keys in results.

Not modelled:

* `conversion.py` (the shortcuts of `c`) beyond the constructors it forwards to; `__init__.py`.
* Lazy values inside expressions: generators are modelled on their own (`Lazy`, C54); in `Expr`, `Text` and `Exec` the
  values of `GeneratorComp` do not occur.
* `InlineExpr` with arbitrary text: only the operators defined in `BaseConversion` (601–731) are covered.  The text a user
  gives is arbitrary Python.
* Slices in `ensure_conversion` (203–216).
* `sort` on `c.aggregate` (it calls the method `sort` of whatever the result is).
* Formatting by `black` and the debug printing (base.py 580–592), pickling, `__repr__`.
* Garbage collection, asynchronous exceptions, memory and recursion limits.

Simplifications are stated in the header or comment of the definition concerned.  The important ones:

* `Expr`: generated names and value names are parameters (`Names`); that they are fresh and bound to the right objects is
  C09/C10.  Loops run with an arbitrary bound on steps, the same on both sides of each theorem.
* `Agg`, `Reducers`, `Join` (not `JoinGen`): the row expressions are functions of the rows which may raise, without side effects.
* `Reducers`: accumulated lists are not aliased.
* `Names`: `_hash_item` is an arbitrary integer attached to the object.
* `Text`: identifiers and numbers are ASCII; `printable` characters are a parameter of the `repr` model.
* `Exec`: one dictionary holds the labels of the user and those made by `If`, as in the code; exceptions caught by
  `except (TypeError, KeyError, IndexError, AttributeError)` are a parameter (`Runtime.caught`), other `except` clauses fail;
  names of arguments, variables and labels are different from names of the module (`Fit`, `varName`); `KeyError` does not depend on the name of a missing
  `cached_val` label (`PyConsts.missing`; there is no such run).
* `Expr`: the truth of `a and b` in a condition is tested on its value, as the language reference says (CPython's jumps test it
  once less); this matters only for values whose `__bool__` has effects.
* `Stmt`: the codes of conversions inside (arguments, filters, keys, result, sort) are texts with the trees they are read as
  and what these evaluate to (`Gives`, `Tests`, `KeyOk`, `Yields`); rows, values and operators are parameters (`Py`),
  without side effects; `def` and `class` lines are parsed; a call of a function of the user gives what a function of the
  values of its two arguments gives (`CallsFn`), after evaluating both.
* `GroupKeys`: keys are lookups by constants; names and constants of items do not contain `row_` (otherwise see the
  refutations).

## Axioms of the property theorems

From `#print axioms` for every theorem named in `MANIFEST.json`.

* propext (54): `RUCache.C03_victim`, `Options.C06_refuted`, `Names.C10_refuted_closures`, `Names.C10_refuted_floats`, `Names.C10_refuted_shadowed_builtin`, `Names.C10_refuted_subclass`, `Expr.C14_pipe_stages`, `Heap.C17_refuted_limit`, `Expr.C22_default`, `Expr.C22_skip_value`, `Expr.C22_skip_if`, `Expr.C22_keep_if`, `Labels.C27_labels_dropped_partial`, `Labels.C27_refuted`, `Labels.C27_refuted_held`, `Labels.C28_refuted_generators`, `Labels.C28_refuted_threads`, `Heap.C29_refuted_failure`, `Heap.C29_refuted_threads`, `Heap.C30_refuted_add_label`, `Signature.C31_method_instance_partial`, `Signature.C31_refuted`, `Reducers.C33_refuted_initial`, `Reducers.C40_no_sentinel_partial`, `Reducers.C40_builtins`, `Reducers.C40_refuted`, `Reducers.C41_custom_partial`, `Reducers.C41_last_partial`, `Reducers.C41_refuted_accumulators`, `Reducers.C41_refuted_max`, `Reducers.C41_refuted_first`, `Join.C44_refuted_generator`, `Join.C44_refuted_iterator`, `Join.C44_refuted_guard`, `Join.C45_refuted_prefilter`, `Join.C45_refuted_generator`, `Join.C46_refuted_hashers`, `Join.C46_refuted_filters`, `Join.C47_refuted_none`, `Join.C47_refuted_prefilter`, `Expr.C50_mutations`, `Heap.C53_refuted_this`, `Lazy.C54_create`, `Lazy.C55_comprehension_partial`, `Lazy.C55_refuted_twice`, `Lazy.C55_refuted_cast`, `JoinGen.C59_ended`, `JoinGen.C63_ended`, `JoinGen.C63_refuted_later`, `JoinGen.C63_refuted_zip`, `JoinGen.C63_refuted_outer`, `JoinNames.C64_refuted_key`, `JoinNames.C64_refuted_filter`, `JoinNames.C64_refuted_argument`
* no axioms (6): `RUCache.C01_zero_capacity_raises`, `LineCache.C05_refuted_collision`, `LineCache.C05_refuted_self_eviction`, `LineCache.C05_refuted_cleared`, `Expr.C22_rejected`, `Reducers.C40_default`
* propext, Quot.sound (36): `RUCache.C01_negative_capacity_unbounded`, `Options.C07_defaults_restored`, `Agg.C24_group_by`, `Labels.C26_refuted_held`, `Labels.C27_observed_partial`, `Labels.C28_no_labels_partial`, `Heap.C29_refuted_sorted`, `Heap.C30_refuted_reduce_filter`, `Heap.C30_refuted_aggregate`, `Agg.C32_one_per_key`, `Reducers.C38_count`, `Reducers.C41_sum_or_none_partial`, `Expr.C50_accepted`, `Stmt.Grammar.source_program`, `Heap.C52_refuted_sort_key`, `Heap.C52_refuted_late_label`, `Heap.C52_refuted_late_filter`, `Heap.C52_refuted_exact`, `Lazy.C54_on_demand`, `Lazy.C54_drained`, `Lazy.C54_chain`, `Lazy.C55_filter`, `Lazy.C55_method`, `Lazy.C55_unfiltered`, `Heap.C60_refuted_two_pipes`, `Heap.C60_refuted_method`, `Heap.C60_refuted_sort`, `Heap.C61_partial`, `Heap.C61_refuted_piped_collection`, `Construct.C62_plain`, `Construct.C62_dict_partial`, `Construct.C62_dict_refuses`, `JoinGen.C63_at_once_partial`, `JoinGen.C63_sequence_partial`, `JoinNames.C64_key_partial`, `JoinNames.C64_filter_partial`
* propext, Classical.choice, Quot.sound (196): `RUCache.C01_bounded`, `RUCache.C02_map_with_announced_losses`, `RUCache.C03_refines_clock`, `LineCache.C04_linecache_consistent`, `LineCache.C05_last_file_partial`, `LineCache.C05_own_code_partial`, `Options.C06_stack_partial`, `Options.C06_depth_two_partial`, `Options.C08_thread_isolation`, `Names.C09_names_unique`, `Names.C09_names_stable`, `Names.C09_name_shape`, `Names.C10_intact_partial`, `Names.C11_identifier`, `Names.C11_identifier_kept`, `Names.C11_idempotent`, `Signature.C12_default_signature`, `Signature.C12_both_flags`, `Signature.C12_explicit_signature`, `Signature.C12_refuted_word_is_parameter`, `Expr.C13_expressions_partial`, `Expr.C13_checked_partial`, `Expr.C13_refuted_empty_set`, `Expr.C13_refuted_empty_tuple`, `Expr.C14_stages_in_order`, `Expr.C15_once_partial`, `Expr.C15_pure_partial`, `Expr.C15_refuted`, `Expr.C16_once_partial`, `Expr.C16_refuted_twice`, `Expr.C16_refuted_text`, `Heap.C17_pipe`, `Heap.C17_associative_partial`, `Expr.C18_if_partial`, `Expr.C18_input_once_partial`, `Expr.C18_refuted_key_error`, `Expr.C18_refuted_twice`, `Expr.C18_refuted_truth`, `Expr.C19_text`, `Expr.C19_no_call`, `Expr.C19_no_effects`, `Expr.C20_default_partial`, `Expr.C20_refuted_args`, `Expr.C21_and_or`, `Expr.C21_eq`, `Expr.C21_value`, `Expr.C21_eq_value`, `Expr.C22_effects`, `Expr.C22_items_partial`, `Expr.C22_pairs_partial`, `Expr.C22_refuted_both`, `Expr.C23_effects`, `Expr.C23_items_partial`, `Expr.C23_pairs_partial`, `Expr.C23_dict_partial`, `Expr.C23_raises`, `Expr.C24_list_partial`, `Expr.C24_tuple_partial`, `Expr.C24_dict_partial`, `Expr.C24_refuted_dict`, `Expr.C25_tap`, `Labels.C26_at_every_moment`, `Labels.C26_reads_latest_partial`, `Expr.C26_labelling_partial`, `Expr.C26_reading`, `Expr.C26_add_labels_partial`, `Expr.C26_refuted_own_label`, `Expr.C26_refuted_dropped`, `Expr.C26_refuted_auto`, `Labels.C28_sequential_partial`, `Heap.C29_success_partial`, `Heap.C29_codes_partial`, `Heap.C29_grown_partial`, `Heap.C29_failure_partial`, `Heap.C30_originals_kept_partial`, `Agg.C32_output_partial`, `Agg.C32_refuted_no_reduces`, `Agg.C33_group_by_partial`, `Reducers.C33_builtins_partial`, `Agg.C34_aggregate_partial`, `Agg.C34_unconditional_partial`, `Agg.C34_first_row_partial`, `Agg.C34_refuted`, `Agg.C35_sharing_partial`, `Agg.C35_refuted_aggregate`, `Agg.C35_refuted_group_by`, `Stmt.Demo.C35_refuted_constant`, `Stmt.Demo.C35_refuted_filter`, `Reducers.C36_sum`, `Reducers.C36_sum_or_none`, `Reducers.C37_max`, `Reducers.C37_min`, `Reducers.C37_max_row`, `Reducers.C37_min_row`, `Reducers.C38_count_distinct`, `Reducers.C38_first`, `Reducers.C38_last`, `Reducers.C38_array`, `Reducers.C38_array_distinct`, `Reducers.C39_dict_last`, `Reducers.C39_dict_first`, `Reducers.C39_dict_array`, `Reducers.C39_dict_array_distinct`, `Reducers.C39_dict_count_distinct`, `Reducers.C39_dict_sum`, `Reducers.C39_dict_sum_or_none`, `Reducers.C39_dict_max`, `Reducers.C39_dict_min`, `Reducers.C39_dict_count`, `GroupKeys.C42_value_partial`, `GroupKeys.C42_rejected_partial`, `GroupKeys.C42_key_partial`, `GroupKeys.C42_other_partial`, `GroupKeys.C42_collection_partial`, `GroupKeys.C42_refuted_constant`, `GroupKeys.C42_refuted_changed`, `GroupKeys.C42_refuted_attribute`, `GroupKeys.C42_refuted_constant_key`, `Join.C43_split_preserves`, `Join.C44_inner_partial`, `Join.C45_left_partial`, `Join.C46_right_partial`, `Join.C47_outer_partial`, `Text.C48_expression`, `Text.C48_conversion_partial`, `Text.C48_operators_partial`, `Text.C48_stages_partial`, `Text.C48_assignment`, `Text.C48_refuted_negative`, `Text.C48_refuted_number`, `Text.C48_refuted_label`, `Text.C49_choice`, `Text.C49_text_partial`, `Text.C49_value`, `Text.C49_refuted_keyword`, `Expr.C50_meaning_partial`, `Expr.C50_refuted_empty_set`, `Expr.C50_refuted_empty_tuple`, `Exec.C51_text_partial`, `Heap.C52_covered_partial`, `Heap.C52_args_partial`, `Heap.C53_add_label_partial`, `Heap.C53_labels_partial`, `Heap.C53_numbers_partial`, `Stmt.C56_aggregate_partial`, `Stmt.C56_group_by_partial`, `Stmt.Demo.C56_refuted_constant`, `Stmt.Demo.C56_refuted_aggregate`, `Stmt.Demo.C56_refuted_arg`, `Stmt.C57_aggregate`, `Stmt.C57_group_by`, `Stmt.C58_group_by`, `Stmt.same_hash`, `JoinGen.C59_stream`, `JoinGen.C59_on_demand`, `JoinGen.C59_drained`, `Heap.C60_partial`, `Heap.C61_constructed`, `Construct.C62_refuted_piped`, `JoinNames.C64_inner_loop`, `JoinNames.C65_partial`, `JoinNames.C65_refuted_left`, `Stmt.C66_aggregate_partial`, `Stmt.C66_group_by_partial`, `Stmt.C66_builtins_partial`, `Stmt.Demo.C66_refuted`, `Stmt.C67_group_by_partial`, `Stmt.C67_aggregate_partial`, `Stmt.Demo.C67_refuted_sentinel`, `Stmt.C68_group_by_partial`, `Stmt.C68_aggregate_partial`, `Stmt.mixed_differ`, `Inline.C69_fields`, `Inline.C69_fields_mixed`, `Inline.C69_operands_partial`, `Inline.C69_nested_partial`, `Inline.C69_conversions_partial`, `Inline.C69_left_join_partial`, `Inline.C69_refuted_negative`, `Inline.C69_refuted_capture`, `Inline.C70_operators_partial`, `Inline.C70_words`, `Inline.C70_unary`, `Inline.C70_formula_partial`, `Inline.C70_text`, `Inline.C70_text_one`, `Inline.C70_refuted_negative`, `Stmt.C71_group_by_partial`, `Stmt.C71_aggregate_partial`, `Stmt.Demo.C71_refuted_shared`, `Stmt.C72_group_by_partial`, `Stmt.C72_functions_partial`, `Stmt.C72_aggregate_partial`, `Stmt.C72_several_partial`, `Stmt.args_same`, `Stmt.Demo.demo_tuple`
