{"id": "C01", "title": "Recently-used cache stays bounded", "statement": "A RUCache created with max_size >= 1 never holds more than max_size entries after any sequence of get/set/has calls, and no call raises. (With max_size == 0 the first set of a new key raises IndexError; a negative max_size never evicts.)", "quantifier": "every max_size, every finite sequence of get/set/has operations on any keys and values", "why_tests_cant": "Boundedness must hold after every history of operations; a test runs a handful of histories.", "anchors": ["src/convtools/utils.py: RUCache.set, RUCache._evict"]}
{"id": "C02", "title": "Recently-used cache is a map with announced evictions", "statement": "After any history, get(k) returns the value most recently set for k unless k has been announced to on_evict since; every eviction is announced exactly once with the key's latest value; a key is absent only if it was never set or was announced as evicted.", "quantifier": "every history of operations, every key", "why_tests_cant": "Quantifies over all operation histories and all keys.", "anchors": ["src/convtools/utils.py: RUCache.get/set/has/_evict"]}
{"id": "C03", "title": "Recently-used cache gives touched entries a second chance", "statement": "When inserting a new key into a full cache, the evicted entry is the oldest entry not touched (get / set / has with bump_up) since it was last queued; only if every entry was touched is the oldest one evicted. Touched entries that were skipped are re-queued as newest.", "quantifier": "every reachable cache state, every new key", "why_tests_cant": "The eviction order depends on the whole history of touches.", "anchors": ["src/convtools/utils.py: RUCache._evict, _keys_to_be_put_back"]}
{"id": "C04", "title": "Source-line cache is bounded and consistent with the LRU", "statement": "After any history of converters publishing their sources (debug or exceptions), the number of convtools entries in linecache is at most the cache size, an entry is in linecache exactly when the LRU knows it, and the published text for a file name is the text of some converter that used this file name.", "quantifier": "every history of publications with arbitrary file names and texts", "why_tests_cant": "Depends on arbitrary long histories and on file-name collisions (random two-character suffixes).", "anchors": ["src/convtools/base.py: _ConverterCallable.populate_line_cache, clean_line_cache", "src/convtools/utils.py: RUCache"]}
{"id": "C05", "title": "A published file name shows its own converter's code", "statement": "When a converter publishes its sources, linecache afterwards maps each of its fake file names to that converter's own code text.", "quantifier": "every pair of converters, every file name assignment the random name generator may produce", "why_tests_cant": "File-name collisions are random and rare in a test run.", "anchors": ["src/convtools/base.py: populate_line_cache, gen_name, _code_to_converter"]}
{"id": "C06", "title": "Options contexts nest like a stack", "statement": "Inside nested option contexts, an option read returns what was set in the innermost open context (inherited from the enclosing one when not set), and leaving a context restores exactly what the enclosing context saw before.", "quantifier": "every well-bracketed sequence of enter / set / exit / read, any nesting depth", "why_tests_cant": "Nesting depth and interleaving are unbounded; the test suite nests two deep.", "anchors": ["src/convtools/utils.py: BaseCtx.__enter__/__exit__/get_option_value, BaseOptions.clone"]}
{"id": "C07", "title": "Leaving the outermost options context restores the defaults", "statement": "After any well-bracketed sequence of context entries and exits at any depth, the options read outside are the defaults again.", "quantifier": "every balanced sequence, any depth", "why_tests_cant": "Unbounded nesting depth.", "anchors": ["src/convtools/utils.py: BaseCtx"]}
{"id": "C08", "title": "Options contexts of different threads are isolated", "statement": "Whatever a thread does with its option contexts, no other thread can observe it.", "quantifier": "every interleaving of operations of any number of threads", "why_tests_cant": "Quantifies over all schedules.", "anchors": ["src/convtools/utils.py: BaseCtxMeta (threading.local), BaseCtx"]}
{"id": "C09", "title": "Generated names are unique and stable", "statement": "Within one compilation, asking twice for a name of the same thing gives the same name, and two different things (different prefix or different hash) never share a name, whatever the random generator yields. Name generation either succeeds or raises AssertionError.", "quantifier": "every sequence of requests, every stream of random choices", "why_tests_cant": "The generator is random; a test sees one stream.", "anchors": ["src/convtools/base.py: BaseConversion.gen_name"]}
{"id": "C10", "title": "Objects passed by value reach the generated code intact", "statement": "Every object wrapped by c.naive / call_func / arguments evaluates, inside the compiled converter, to that very object.", "quantifier": "every sequence of wrapped objects, any hashing of them", "why_tests_cant": "Must hold for any combination of objects, including ones with equal hashes (closures of one function, -1.0 and -2.0).", "anchors": ["src/convtools/base.py: NaiveConversion._gen_code_and_update_ctx, _hash_item, gen_name"]}
{"id": "C11", "title": "Identifier prefixes derived from callables are identifiers", "statement": "The variable-name prefix derived from an arbitrary callable name consists only of ASCII letters, digits and underscores and does not start with a digit, and a name that already is such an identifier is kept unchanged.", "quantifier": "every string", "why_tests_cant": "Quantifies over all strings.", "anchors": ["src/convtools/base.py: var_name_from_string"]}
{"id": "C12", "title": "Converter signature contains exactly the needed arguments", "statement": "Without an explicit signature the compiled converter takes data_ plus keyword-only arguments: exactly the distinct input_arg names used (self/cls excluded; labels are not arguments), sorted by name, each once. With an explicit signature that lacks a needed name as a word, compilation raises ConversionException.", "quantifier": "every conversion with any set of input args / labels, every signature string", "why_tests_cant": "Quantifies over all dependency sets.", "anchors": ["src/convtools/base.py: get_args, get_args_def_code, gen_converter"]}
{"id": "C13", "title": "Expression conversions compile to code with the specified meaning", "statement": "For every conversion built from naive values, input args, labels, item/attr lookups, calls, operators, and_/or_/not_/==, collections and comprehensions, running the compiled code on an input yields the same value, the same exception and the same side effects in the same order as evaluating the conversion directly on that input.", "quantifier": "every conversion of the fragment (any nesting), every input, every argument assignment, every behaviour of the called functions and overloaded operators", "why_tests_cant": "Infinitely many conversions and inputs.", "anchors": ["src/convtools/base.py: gen_code_and_update_ctx and _gen_code_and_update_ctx of each conversion"]}
{"id": "C14", "title": "Top-level pipes run each stage once, in order", "statement": "a.pipe(b).pipe(c)... compiled at top level runs every stage exactly once, feeds each stage the previous stage's result and stops at the first exception.", "quantifier": "every chain length, every stage, every input, stages with arbitrary side effects", "why_tests_cant": "Unbounded chains and arbitrary effects.", "anchors": ["src/convtools/base.py: gen_converter (statement form), pipe"]}
{"id": "C15", "title": "Nested pipes compute the composition", "statement": "A pipe nested inside another conversion returns the value of the second conversion applied to the value of the first one.", "quantifier": "every nested pipe, every input", "why_tests_cant": "Infinitely many conversions; the code inlines the text of the first stage at every use.", "anchors": ["src/convtools/base.py: gen_code_and_update_ctx, set_predefined_input"]}
{"id": "C16", "title": "Nested pipes run the first stage exactly once", "statement": "A function called by the first stage of a nested pipe is called exactly once per evaluation, however often the second stage refers to its input.", "quantifier": "every nested pipe with side effecting functions", "why_tests_cant": "Depends on the number of textual uses of the input.", "anchors": ["src/convtools/base.py: gen_code_and_update_ctx"]}
{"id": "C17", "title": "Piping is associative and does not touch its operands", "statement": "(a.pipe(b)).pipe(c) and a.pipe(b.pipe(c)) are the same chain of stages; piping leaves the operands' own chains unchanged, and a chain longer than max_pipe_length raises ConversionException instead of being truncated.", "quantifier": "every chain, every max_pipe_length", "why_tests_cant": "Unbounded chains and repeated reuse of the same conversion objects.", "anchors": ["src/convtools/base.py: clone, set_predefined_input, pipe"]}
{"id": "C18", "title": "Conditional conversion picks the branch by the condition", "statement": "c.if_(cond, a, b) returns a applied to the input if cond applied to the input is truthy, else b applied to the input; the input is computed once per evaluation when it is not a simple expression.", "quantifier": "every condition, branches and input expression", "why_tests_cant": "Depends on evaluation order inside arbitrary conditions.", "anchors": ["src/convtools/base.py: If._gen_code_and_update_ctx, CachingConversion"]}
{"id": "C19", "title": "Simple-input check is sound", "statement": "If the text of an input expression is classified as simple, evaluating it twice is harmless: it is a sequence of word characters and quotes only, optionally in one pair of parentheses, so it contains no call, index or attribute lookup.", "quantifier": "every code string", "why_tests_cant": "Quantifies over all strings.", "anchors": ["src/convtools/base.py: If.input_is_simple"]}
{"id": "C20", "title": "Lookup with default", "statement": "c.item(k1..kn, default=d) (and c.attr) returns the looked-up value when all lookups succeed, d when one of them raises TypeError, KeyError, IndexError or AttributeError, and propagates any other exception; index conversions are evaluated against the original input.", "quantifier": "every path, every input, every default, indexes that are conversions themselves (including input args)", "why_tests_cant": "Infinitely many paths and inputs, every failure point along the path.", "anchors": ["src/convtools/base.py: GetItem._gen_code_and_update_ctx, GET_OR_DEFAULT_TEMPLATE"]}
{"id": "C21", "title": "Logical conversions short-circuit with Python values", "statement": "and_/or_ over any number (>= 2) of arguments evaluate arguments left to right, return the first falsy/truthy operand value (or the last one) and do not evaluate the rest; == over n arguments compares neighbours left to right and stops at the first unequal pair.", "quantifier": "every number of operands and every operand behaviour", "why_tests_cant": "Unbounded arity and arbitrary operand effects.", "anchors": ["src/convtools/base.py: Or, And, Eq, Not"]}
{"id": "C22", "title": "Optional collection items", "statement": "A list/tuple/set/dict conversion with c.optional items contains, in definition order, exactly the items whose keep condition holds (not skip_if, keep_if, value is not None, or value != skip_value); a dict pair is kept iff the conditions of both its optional key and value hold.", "quantifier": "every collection definition, every input", "why_tests_cant": "Any number of items and any combination of conditions.", "anchors": ["src/convtools/base.py: OptionalCollectionItem, BaseCollectionConversion, Dict.prepare_optional_items"]}
{"id": "C23", "title": "Comprehensions map and filter in order", "statement": "list_comp / tuple_comp yield the item conversion of exactly the elements passing the filter, in input order; set_comp the set of them; dict_comp maps each key to the value of the last element producing it, keys in first-appearance order.", "quantifier": "every input collection length, every item / filter conversion", "why_tests_cant": "Any length and content.", "anchors": ["src/convtools/base.py: BaseComprehensionConversion, ListComp, TupleComp, SetComp, DictComp, Filter"]}
{"id": "C24", "title": "Sorted comprehensions are stable permutations", "statement": "list_comp(...).sort(key, reverse) (and tuple_comp, dict_comp, group_by(...).sort) return a permutation of the unsorted result, ordered by key (descending when reverse) with equal keys kept in original order.", "quantifier": "every collection and every total-preorder key", "why_tests_cant": "Any length and content.", "anchors": ["src/convtools/base.py: BaseComprehensionConversion.sort, gen_sort_code", "src/convtools/aggregations.py: GroupBy.sort"]}
{"id": "C25", "title": "tap mutates in place, in order, and returns the same object", "statement": "x.tap(m1..mn) evaluates x once, applies the mutations in the given order, each seeing the effects of the previous ones, and returns the same object; an exception stops later mutations.", "quantifier": "every list of mutations, every object state", "why_tests_cant": "Any number and order of mutations.", "anchors": ["src/convtools/base.py: TapConversion", "src/convtools/mutations.py: SetItem, SetAttr, DelItem, DelAttr, Custom"]}
{"id": "C26", "title": "Labels return the most recently labelled value", "statement": "c.label(n) evaluates to the value most recently labelled n during the current call, and raises KeyError if there was none; the labelled conversion itself returns its own value and all labels of one labelling step are assigned in definition order from that value.", "quantifier": "every program of labelling and reading steps", "why_tests_cant": "Any number and order of labelling steps.", "anchors": ["src/convtools/base.py: CachingConversion, LabelConversion"]}
{"id": "C27", "title": "No label survives a finished call", "statement": "When a converter call that returned a plain value, raised, or whose generator was exhausted/closed/failed is over, the next call starts without any label.", "quantifier": "every history of calls, successful or failing at any point", "why_tests_cant": "Crash points and histories are unbounded.", "anchors": ["src/convtools/base.py: _ConverterCallable.__call__, wrap_generator_clean_labels_on_exit"]}
{"id": "C28", "title": "Concurrent and interleaved uses of one converter are independent", "statement": "The result of one use of a converter (a call, or iterating the generator it returned) does not depend on other uses of the same converter running, pending or interleaved with it.", "quantifier": "every interleaving of threads and partially consumed generators", "why_tests_cant": "Quantifies over all schedules.", "anchors": ["src/convtools/base.py: gen_converter (labels_), _ConverterCallable", "src/convtools/joins.py: join (right_collection / hash_to_items labels)"]}
{"id": "C29", "title": "Compiling does not change the conversion", "statement": "gen_converter leaves the conversion as it was, so compiling again (or from several threads) gives an equivalent converter, also when compilation fails.", "quantifier": "every conversion chain, every failure point, every interleaving of two compilations", "why_tests_cant": "Failure points and schedules.", "anchors": ["src/convtools/base.py: gen_converter (loop over pipes)"]}
{"id": "C30", "title": "Deriving a conversion does not change the original", "statement": "pipe, filter, sort, pass_args, aggregate, item, call... return a new conversion; conversions that were built earlier keep their meaning.", "quantifier": "every sequence of derivations from shared conversion objects", "why_tests_cant": "Aliasing shows only for particular reuse patterns.", "anchors": ["src/convtools/base.py: clone, filter, sort, pass_args, CachingConversion.add_label", "src/convtools/aggregations.py: Reduce.filter, GroupBy.aggregate"]}
{"id": "C31", "title": "A converter used as a method receives its instance", "statement": "A converter generated with method=True and stored on a class is called with the instance it was accessed on as first argument (with the class when accessed on the class).", "quantifier": "every class and instance, truthy or not", "why_tests_cant": "Depends on the instance's own truthiness.", "anchors": ["src/convtools/base.py: _ConverterCallable.__get__, _ConverterCallableMethod"]}
{"id": "C32", "title": "group_by yields one row per distinct key, in first-seen order", "statement": "The output of group_by(...).aggregate(...) has exactly one element per distinct key tuple of the input, ordered by first appearance.", "quantifier": "every input collection, every key conversion", "why_tests_cant": "Any length and key distribution.", "anchors": ["src/convtools/aggregations.py: GROUPER_TEMPLATE, GroupBy._gen_code_and_update_ctx"]}
{"id": "C33", "title": "Each reduce sees exactly its group's rows", "statement": "In group_by, every reduce of a group's output is the result of folding that reduce alone over exactly the rows of the group that pass its filter, in input order, whatever other reduces are computed along with it.", "quantifier": "every input, every set of reduces (with or without filters, conditional or unconditional initialisation)", "why_tests_cant": "The generated code merges reduce blocks; all combinations and inputs.", "anchors": ["src/convtools/aggregations.py: ReduceBlocks, ReduceBlock.union, ReduceConditionalBlock, GROUPER_TEMPLATE"]}
{"id": "C34", "title": "Each reduce of c.aggregate sees all rows", "statement": "In c.aggregate, every reduce is the result of folding that reduce alone over all rows of the input that pass its filter, in input order, whatever other reduces are computed along with it.", "quantifier": "every input, every set of reduces", "why_tests_cant": "The generated loop stops initialisation checks early depending on the data.", "anchors": ["src/convtools/aggregations.py: AGGREGATE_TEMPLATE, ReduceBlock.get_template (checksum)"]}
{"id": "C35", "title": "Sharing of identical reduces is invisible", "statement": "Two reduce clauses of one aggregation share their accumulator only if they are the same reduction of the same expression under the same filter, so the output equals that of computing each separately.", "quantifier": "every list of reduce clauses", "why_tests_cant": "Depends on textual coincidences of generated code.", "anchors": ["src/convtools/aggregations.py: ReduceBlock.code_hash, GroupBy._gen_code_and_update_ctx"]}
{"id": "C36", "title": "Sum / SumOrNone", "statement": "Sum is the sum of the values with falsy values counted as 0 (0 for no rows); SumOrNone is None as soon as one value is None and otherwise the sum (None for no rows).", "quantifier": "every list of rows", "why_tests_cant": "Any length and any placement of None.", "anchors": ["src/convtools/aggregations.py: _Sum, _SumOrNone"]}
{"id": "C37", "title": "Max / Min / MaxRow / MinRow", "statement": "Max (Min) is a maximal (minimal) non-None value, None if there is none; MaxRow (MinRow) is the first row attaining it.", "quantifier": "every list of rows with comparable values", "why_tests_cant": "Any length, ties and None placement.", "anchors": ["src/convtools/aggregations.py: _Max, _Min, _MaxRow, _MinRow"]}
{"id": "C38", "title": "Count / CountDistinct / First / Last / Array / ArrayDistinct", "statement": "Count is the number of rows, CountDistinct the number of distinct values, First/Last the first/last value, Array all values in order, ArrayDistinct the distinct values in first-seen order; on no rows 0, 0, None, None, None, None.", "quantifier": "every list of rows", "why_tests_cant": "Any length and repetition pattern.", "anchors": ["src/convtools/aggregations.py: _Count, _CountDistinct, _First, _Last, _Array, _ArrayDistinct"]}
{"id": "C39", "title": "Dict reducers are per-key reductions", "statement": "Each Dict* reducer yields a dict whose keys are the distinct keys of the rows in first-seen order (for DictMax/DictMin: keys having a non-None value) and whose value for a key is the corresponding plain reducer applied to that key's values in order.", "quantifier": "every list of rows, every key distribution", "why_tests_cant": "Any interleaving of keys.", "anchors": ["src/convtools/aggregations.py: _Dict, _DictArray, _DictArrayDistinct, _DictSum, _DictSumOrNone, _DictMax, _DictMin, _DictCount, _DictCountDistinct, _DictFirst, _DictLast"]}
{"id": "C40", "title": "A reduce without rows yields its default, never an internal object", "statement": "If no row reaches a reduce, its result is the declared default (called if callable), or the value of `initial`; no internal sentinel object ever appears in results.", "quantifier": "every reduce definition, every input", "why_tests_cant": "Depends on combinations of default/initial/filter and data.", "anchors": ["src/convtools/aggregations.py: Reduce._gen_code_and_update_ctx, Reduce.__init__"]}
{"id": "C41", "title": "initial is the starting value of the fold", "statement": "With initial=v the reduction of rows r1..rn is f(...f(f(v, r1), r2)..., rn) for custom reduce functions and for the built-in reducers alike.", "quantifier": "every reducer, every initial, every list of rows", "why_tests_cant": "Any length; all reducers.", "anchors": ["src/convtools/aggregations.py: _ReducerExpression.gen_reduce_initial, _ReducerStatements.gen_reduce_initial"]}
{"id": "C42", "title": "Group keys in the result are the group's keys", "statement": "A key conversion mentioned in the result of group_by evaluates to the group's key, and mentioning any other field of the rows is rejected with ConversionException at compile time.", "quantifier": "every set of key conversions and result items", "why_tests_cant": "The check and the substitution work on text; all texts.", "anchors": ["src/convtools/aggregations.py: GroupBy._gen_reducer_result_item"]}
{"id": "C43", "title": "Join condition analysis preserves the condition", "statement": "Splitting a join condition into hash keys, per-side filters, inner-loop conditions and pre-filters loses nothing: a pair satisfies the condition iff it satisfies all parts.", "quantifier": "every condition tree of ==, and_ and other conversions over left and right, every pair of rows", "why_tests_cant": "Infinitely many condition trees.", "anchors": ["src/convtools/joins.py: _JoinConditions.consume_eq/consume_and/consume_other"]}
{"id": "C44", "title": "Inner join", "statement": "c.join(how='inner') yields exactly the pairs (l, r) satisfying the condition, ordered by left position then right position.", "quantifier": "every left and right collection (lists or one-shot iterators), every condition", "why_tests_cant": "Any sizes, duplicates, conditions.", "anchors": ["src/convtools/joins.py: join"]}
{"id": "C45", "title": "Left join", "statement": "c.join(how='left') yields for every left row its matching pairs in right order, or (l, None) if there is none, in left order.", "quantifier": "every left and right collection, every condition", "why_tests_cant": "Any sizes, duplicates, conditions.", "anchors": ["src/convtools/joins.py: join, _left_joiner"]}
{"id": "C46", "title": "Right join", "statement": "c.join(how='right') yields for every right row its matching pairs in left order, or (None, r) if there is none, in right order.", "quantifier": "every left and right collection, every condition", "why_tests_cant": "Any sizes, duplicates, conditions.", "anchors": ["src/convtools/joins.py: join (left_right_swapped), _left_joiner_swapped"]}
{"id": "C47", "title": "Outer join", "statement": "c.join(how='outer') yields the left join followed by (None, r) for every right row that matched no left row, in right order.", "quantifier": "every left and right collection, every condition", "why_tests_cant": "Any sizes, duplicates, conditions.", "anchors": ["src/convtools/joins.py: join, _add_right_part"]}
{"id": "C48", "title": "Generated expressions keep their operator structure", "statement": "The text generated for a conversion parses back to the operator tree the conversion describes: no operand is re-associated by Python's precedence rules.", "quantifier": "every conversion, every nesting of operators", "why_tests_cant": "Infinitely many nestings.", "anchors": ["src/convtools/base.py: InlineExpr._gen_code_and_update_ctx, Or, If, GetItem, Call and collection code generation"]}
{"id": "C49", "title": "Attribute access by literal or dynamic name agree", "statement": "c.attr with any string name reads the attribute of exactly that name, whether the code uses dot syntax or getattr.", "quantifier": "every attribute name", "why_tests_cant": "Quantifies over all names.", "anchors": ["src/convtools/base.py: GetAttr.wrap_path_item"]}
{"id": "C50", "title": "ensure_conversion covers every Python object", "statement": "Any object used where a conversion is expected is treated as: itself if it is a conversion, the matching collection conversion for dict/list/tuple/set (recursively), and otherwise a constant evaluating to that object; mutations are rejected outside tap.", "quantifier": "every (nested) Python object", "why_tests_cant": "Arbitrary nesting.", "anchors": ["src/convtools/base.py: ensure_conversion"]}
{"id": "C51", "title": "The text of a converter, run by Python, does what the conversion means", "statement": "The statements and helper functions generated for a conversion are texts which Python's grammar reads in exactly one way; executing what was read, in the module dictionary the code is exec'd in (builtins, label functions, objects and helper functions bound to their names), returns the value or raises the exception the conversion means, with the same labels and effects.", "quantifier": "every conversion of the modelled fragment, every input, every set of input arguments, every runtime", "why_tests_cant": "Quantifies over all conversions and inputs, through text, parsing, name lookup and calls of generated helper functions.", "anchors": ["src/convtools/base.py: gen_converter, gen_code_and_update_ctx", "src/convtools/base.py: GET_OR_DEFAULT_TEMPLATE, optional_items_generator, Tap.gen_code_and_update_ctx"]}
{"id": "C52", "title": "Registered dependencies cover everything a conversion uses", "statement": "Every conversion object used by a conversion - its pipe inputs, the object a method is called on, its parts, conditions, sort keys and the conversions of its labels, transitively - is represented among the conversion's registered dependencies, so that every input_arg it needs is in the generated signature.", "quantifier": "every program that derives conversions from conversions (constructors, pipe with labels, callables, pass_args, filter, sort, aggregate), including derivations that raise; every object and everything it uses", "why_tests_cant": "Quantifies over all derivation sequences; dependencies are copied eagerly at construction time, so a miss depends on order and sharing.", "anchors": ["src/convtools/base.py: depends_on, get_dependencies, ensure_conversion, set_predefined_input, pipe, clone", "src/convtools/base.py: BaseComprehensionConversion.filter, sort; pass_args; CachingConversion.add_label", "src/convtools/aggregations.py: Reduce.filter, GroupBy.aggregate, GroupBy.sort"]}
{"id": "C53", "title": "Labelling bookkeeping of conversion objects", "statement": "add_label on a labelled conversion raises and changes nothing if the label is in use; otherwise the label stands for exactly the given conversion (by default the labelled value) and all other labels stand for what they stood for. pipe(..., label_input / label_output) with a dict of labels puts exactly these labels on a new object wrapping the end of the pipe. No two conversion objects ever have the same number, from which the names of unnamed labelled conversions are made.", "quantifier": "every heap of conversion objects, every labelled conversion, every list of labels and conversions; every sequence of derivations (numbers)", "why_tests_cant": "Quantifies over all states and label lists, including conversions which only look like the identity.", "anchors": ["src/convtools/base.py: CachingConversion.__init__, add_label, name", "src/convtools/base.py: pipe, _prepare_labels, _get_number, clone"]}
{"id": "C54", "title": "Generator comprehensions pull on demand", "statement": "A generator (or a chain of generators) made by generator_comp/filter takes an element of its input only when it needs it for the next value, applies every condition and item once per element, passes each element through the whole chain before taking the next one, does nothing when it is created except iter(input), gives nothing and does nothing after its end or an exception; consumed to the end it gives what the list comprehension gives.", "quantifier": "every chain of generator comprehensions, every (also endless) input, every number of next calls, items and conditions with any effects and exceptions", "why_tests_cant": "Inputs, chains, failures and numbers of calls are unbounded; tests consume the generators completely.", "anchors": ["src/convtools/base.py: GeneratorComp, BaseComprehensionConversion.gen_generator_code"]}
{"id": "C55", "title": "filter keeps exactly the items which pass", "statement": "x.filter(cond, cast) gives exactly the items of x which pass cond, in order and in the collection asked for by cast, whatever x is; filters of comprehensions restrict what they run over, and every condition given is respected.", "quantifier": "every conversion of collections, condition, cast and input", "why_tests_cant": "filter has three implementations with different meanings; the combinations of filtering twice, casting and inputs are unbounded.", "anchors": ["src/convtools/base.py: Filter, BaseConversion.filter, BaseComprehensionConversion.filter", "src/convtools/aggregations.py: GroupBy.filter"]}
{"id": "C56", "title": "Generated text of aggregations does what the reduces say", "statement": "The source text generated for c.aggregate and group_by with any list of reduces is valid Python, and a call of the function in it returns exactly what each reduce, computed alone over the rows (of its group), gives, put into the result expression and sorted.", "quantifier": "every list of reduces, filters, function arguments, row list, user values and operations; every nesting of the generated blocks", "why_tests_cant": "The text is assembled from templates by textual replacement, indentation and merging; lists of reduces and rows are unbounded.", "anchors": ["src/convtools/aggregations.py: ReduceBlock, ReduceBlocks, ReduceManager, GROUP_BY_TEMPLATE, AGGREGATE_TEMPLATE", "src/convtools/aggregations.py: GroupBy._gen_code_and_update_ctx"]}
{"id": "C57", "title": "Built-in reducers from their generated text", "statement": "For each built-in reducer without initial value, with any filter, default and arguments whose codes do not contain the name of the accumulator: the text generated from the statement templates for c.aggregate and group_by of this reduce is valid Python, uses nothing but its own names, and a call returns exactly the result of the reducer over the rows of all groups, in order of the first appearance of the keys.", "quantifier": "all 23 built-in reducers, every filter, default, argument code, row list, values and operations, function name and arguments", "why_tests_cant": "Templates are instantiated by str.format and str.replace on arbitrary codes; rows and values are unbounded.", "anchors": ["src/convtools/aggregations.py: _ReducerStatements subclasses (48-483)", "src/convtools/aggregations.py: Reduce._gen_code_and_update_ctx, ReduceBlock.to_code", "src/convtools/aggregations.py: GROUP_BY_TEMPLATE, AGGREGATE_TEMPLATE"]}
{"id": "C58", "title": "Shared accumulators in the generated text of group_by", "statement": "For any list of built-in reducers without initial values in a group_by, some of them equal or not, with or without filters, whose codes do not contain the name of the accumulator: accumulators are shared between reduces with equal code_hash only where both are the same reduction under the same filter, and the generated text is valid Python whose call returns exactly, for each key in order of first appearance, the results of every reduce computed alone over the rows of the key.", "quantifier": "every list of built-in reducers, filters, argument codes, result expression, sort key, row list, values and operations", "why_tests_cant": "code_hash compares program texts after textual removal of a name; that different reductions never get equal texts is a statement about all pairs of codes.", "anchors": ["src/convtools/aggregations.py: ReduceBlock.code_hash (643-648)", "src/convtools/aggregations.py: GroupBy._gen_code_and_update_ctx (1143-1213)", "src/convtools/aggregations.py: _ReducerStatements subclasses (48-483)"]}
{"id": "C59", "title": "Joins are loops whose body is the client's", "statement": "Iterating over c.join(...) is running the nested loops over left and right with the client's code in their middle: the pre-filter runs once; a join by keys or an outer join reads the right side completely before the first left row, every other join nothing; then each left row is read, filtered and matched only when the client has had all pairs of the rows before it; each pair is given as soon as its conditions have been evaluated; nothing runs after an exception or after the client stopped, and left rows not needed stay in their iterator. Consumed to its end, the generator gives the pairs of C44-C47.", "quantifier": "every kind of join, with and without keys, filters and conditions; inputs, conversions and clients with any effects on a common state and any exceptions; endless inputs; every point where a client may stop", "why_tests_cant": "The order of effects between three suspended generators (left filter, right items, joiner) and the client depends on every prefix of both inputs; tests only collect all pairs.", "anchors": ["src/convtools/joins.py: join (174-376), _left_joiner, _left_joiner_swapped, _add_right_part"]}
{"id": "C60", "title": "Every reduce of an aggregation's result has a variable", "statement": "Whatever program of constructor calls, pipes, filters, sorts and aggregates builds the conversion given to aggregate: each Reduce object that code generation of the result meets, directly or nested at any depth, is (by identity) one of the reduces collected from the registered dependencies, so that ctx['_reduce_id_to_var'] has an entry for it.", "quantifier": "every program of derivations (of any length, including failing ones), every result conversion and every reduce used by it", "why_tests_cant": "The collected objects and the objects met by code generation are reached on different ways (copied dependency tuples against copied chains of inputs); whether they are the same objects depends on the whole history of copies.", "anchors": ["src/convtools/aggregations.py: GroupBy.aggregate (993-1019), Reduce._gen_code_and_update_ctx (916-945), GroupBy._gen_code_and_update_ctx (1164-1194)", "src/convtools/base.py: clone (341-360), depends_on (278-281), pipe (787-856)"]}
{"id": "C61", "title": "An aggregation's result is generated with all its parts", "statement": "The code generated for the result of aggregate descends into everything the result conversion uses: its inputs, items, keys, values and what these use.", "quantifier": "every heap of conversions and every result conversion", "why_tests_cant": "Results are rebuilt item by item for four kinds of collections; what a collection refers to besides its items depends on how it was derived.", "anchors": ["src/convtools/aggregations.py: GroupBy.aggregate (1005-1011), GroupBy._rebuild_reducer_result (1062-1117)"]}
{"id": "C62", "title": "A reduce is made of what the user gave it", "statement": "c.reduce(...) is refused exactly if there is no expression or neither an initial value nor a default (dict reducers: also if there are additional arguments or the expression is not a tuple or list of two conversions). Otherwise it has the parameters of the user, completed by those of the reducer; callables given as initial or default stand for what they return; a dict reducer is fed, for every row, with exactly the two values that the expression's pair consists of.", "quantifier": "every reducer, every combination of parameters, every expression, row and runtime (values, operations, exceptions and effects)", "why_tests_cant": "Quantifies over all expressions that evaluate to pairs and over all combinations of parameters of user and reducer.", "anchors": ["src/convtools/aggregations.py: _BaseReducer (48-92), _DictReducerStatements (272-281), Reduce.__init__ (793-862), 938-944"]}
{"id": "C63", "title": "Uses of one join are independent", "statement": "A join conversion may be used any number of times, in one converter or in several runs: every use pairs the rows of its own two inputs, whatever was done with the join before and whatever other uses of it are still pending.", "quantifier": "every join (kind, condition, hashing), every pair of inputs of every use, every client of the generators, every earlier and pending use", "why_tests_cant": "Quantifies over all interleavings of several running generators with the calls that share their labels; tests call a join once and exhaust it.", "anchors": ["src/convtools/joins.py: join (200-283, 285-362, 378-391)", "src/convtools/base.py: with_labels/converter (70-99), gen_converter (503-512)"]}
{"id": "C64", "title": "Rows in the condition of a join", "statement": "In a part of the condition of a join, c.LEFT and c.RIGHT are the rows of the pair wherever they are mentioned (also in later stages of pipes and in comprehensions), and input arguments are the arguments of the caller, whether the part becomes a condition of the inner loop, a filter of a collection or a hash key.", "quantifier": "every part of a condition built of rows, constants, arguments, operations, pipes and comprehensions; every kind of join, naming of variables, runtime and pair of rows", "why_tests_cant": "Quantifies over all conversions and all placements; the meaning of the same conjunct depends on the kind of join it is used in.", "anchors": ["src/convtools/base.py: gen_code_and_update_ctx (303-328), ConversionWrapper and NamedConversion (1079-1130)", "src/convtools/joins.py: _JoinConditions (32-148), join (178-283)"]}
{"id": "C65", "title": "Arguments of a join", "statement": "The converter of a join is compiled with parameters for the two collections and for each input argument of the condition, and each use of the join calls it with the two collections and the values which these arguments have where the join is used.", "quantifier": "every list of input arguments and labels of a condition, every values of them", "why_tests_cant": "Quantifies over all sets and orders of argument names; positional passing is right only because both sides sort the same set.", "anchors": ["src/convtools/joins.py: join (378-391)", "src/convtools/base.py: get_args, get_args_def_code, get_args_as_func_args (404-447), gen_converter (521-548)"]}
{"id": "C66", "title": "Accumulated objects are not shared", "statement": "When the generated function of an aggregation has read its rows, a list, set or dict accumulated by one reduce is in the result of no other reduce and of no other group, so that changing one result does not change another.", "quantifier": "every list of reduces, every collection of rows, every pair of groups and of reduces", "why_tests_cant": "Sharing shows only when a result is modified afterwards, and quantifies over all pairs of variables in all executions; tests compare values of results.", "anchors": ["src/convtools/aggregations.py: _BaseReducer and built-in templates (80-511), ReduceBlock (552-728), GROUPER_TEMPLATE and AGGREGATE_TEMPLATE (755-785), Grouper._gen_code_and_update_ctx (1143-1277)"]}
{"id": "C67", "title": "Functions of the user are folded from the left", "statement": "The code generated for c.reduce(f, expr, initial=..., default=...) with a function f folds f from the left over the values of expr of the rows which pass the filter, in the order of the rows: beginning with the first value, or with f(initial, first value). With nothing to reduce the result is default; an object internal to the library is never the result. In a group_by this holds for each reduce in each group, whatever other reduces there are.", "quantifier": "every function, every expression, initial, default and filter which may raise, every list of such reduces, every collection of rows", "why_tests_cant": "The reduces to share are found by comparing generated text with variable names erased, so a wrong pair of functions, expressions or initial values could be merged; tests try a few functions, most of them commutative, over a few rows.", "anchors": ["src/convtools/aggregations.py: call_with_params (23-42), _ReducerExpression (116-176), Reduce.__init__ (788-861), gen_reduce_code_block (876-914), _gen_code_and_update_ctx (916-945), ReduceBlock.code_hash (643-648)", "src/convtools/base.py: Call._gen_code_and_update_ctx (1372-1383)"]}
{"id": "C68", "title": "Built-in reducers and functions of the user do not disturb each other", "statement": "In one group_by with any mixture of built-in reducers and reduces with functions of the user, every reduce gives in every group what it gives alone over the rows of the group: a built-in reducer its documented result, a function its left fold. Two reduces share a variable only if they are the same reduction under the same filter; a built-in reducer and a function never share one.", "quantifier": "every list of reduces of both kinds in any order, every collection of rows, every key function", "why_tests_cant": "Sharing is decided by comparing generated text with variable names erased: whether the text of some template with some arguments can be the text of a call of some function is a question about all pairs of reduces; tests combine a few.", "anchors": ["src/convtools/aggregations.py: _ReducerExpression (116-176), _ReducerStatements and built-in templates (179-483), ReduceBlock.code_hash (643-648), Reduce (788-945), GroupBy/Grouper (1069-1277)"]}
{"id": "C69", "title": "Arguments of inline expressions are operands", "statement": "The code of an inline expression with arguments is read by Python as its template with each argument as one operand in the place of its field: operators of the template never take the code of an argument apart and operators in an argument never reach into the template; the whole is itself one operand, also for inline expressions in inline expressions. In left and outer joins the loops go over the left and the right items and the condition is the one passed.", "quantifier": "every template within the modelled grammar, every number of positional and keyword arguments with any codes of conversions, any nesting", "why_tests_cant": "str.format pastes text: whether the pasted characters are read as one operand depends on every pair of template and argument code, on precedence and on how characters on both sides join to tokens; tests use a few templates with simple arguments.", "anchors": ["src/convtools/base.py: InlineExpr (1418-1464)", "src/convtools/joins.py: left join template (332-342)"]}
{"id": "C70", "title": "Operators on conversions are Python's operators", "statement": "For each operator method of conversions (+, -, *, /, //, %, ==, !=, <, <=, >, >=, |, &, ~, unary minus, subscription, is_, is_not, in_, not_in), the generated code is read by Python as that operator (| as or, & as and, ~ as not) applied to the codes of the operands in the order written, and as nothing else. A formula of any size made of them is generated as the same formula, whatever the precedence of the operators in it.", "quantifier": "every operator method, every formula of operators of any size, all codes of conversions as operands", "why_tests_cant": "Each method is one template among twenty; a wrong template, a swapped operand or a missing parenthesis shows only for operands whose operators bind weaker, and formulas are unbounded.", "anchors": ["src/convtools/base.py: BaseConversion operator methods (601-729)", "src/convtools/base.py: Or, And, Eq (1133-1171)", "src/convtools/base.py: InlineExpr (1418-1464)"]}
{"id": "C71", "title": "Reduces with inline expressions are left folds of what the expressions compute", "statement": "For reduces of the form c.reduce(c.inline_expr(\"...\"), expr, initial=..., default=...), filtered or not: the function generated for c.aggregate with one of them, and the class and the function generated for group_by with any number of them, are read as Python code, use nothing outside the modelled part of Python, and return exactly the left folds, over the rows (of the group) which pass the filter, of what the inline expression computes for the accumulated value and the value of the row; the fold starts with the first value, or with the expression applied to `initial` and the first value. Reduces which share a variable are written by the same codes.", "quantifier": "all format strings with two fields apart from names, all expressions, initial values and filters, any number of reduces, all rows, all groups", "why_tests_cant": "The text of the accumulator is put into the user's format string, removed from it to compare reduces, and replaced in it when variables are shared; whether the result is still the same expression depends on every character of the format string.", "anchors": ["src/convtools/aggregations.py:23-42", "src/convtools/aggregations.py:116-176", "src/convtools/aggregations.py:643-648", "src/convtools/aggregations.py:876-914", "src/convtools/base.py:1418-1464"]}
{"id": "C72", "title": "Reduces with additional arguments are left folds with all their arguments", "statement": "For reduces of the form c.reduce(f, expr, additional_args=(...), initial=..., default=...), where f is a function of the user or an inline expression, filtered or not: the function generated for c.aggregate with one of them or with any number of them with the same filter, and the class and the function generated for group_by with any number of them, are read as Python code, use nothing outside the modelled part of Python, and return exactly the left folds, over the rows (of the group) which pass the filter, of f applied to the accumulated value, the value of expr and the values of the additional arguments, in this order; the fold starts with `initial`, or, if there is none, with the value of the first row, which is the tuple of all values if there are additional arguments. Reduces with functions which share a variable call the same function with the same arguments and the same initial under the same condition.", "quantifier": "all functions and all format strings with fields apart from names, any number of additional arguments with any codes, all initial values and filters, any number of reduces, all rows, all groups", "why_tests_cant": "The codes of the arguments are joined by commas into calls, tuples and format strings, in which variables are then removed to compare reduces and replaced to share them; whether the joined text is still read as these arguments, for every number and form of them, is not visible in the few reduces of the tests.", "anchors": ["src/convtools/aggregations.py:23-42", "src/convtools/aggregations.py:116-176", "src/convtools/aggregations.py:643-648", "src/convtools/aggregations.py:788-914", "src/convtools/base.py:1357-1389", "src/convtools/base.py:1676-1684"]}
