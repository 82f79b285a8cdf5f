{"id": "C01", "title": "Left join pairs exactly the matching rows", "statement": "merge_indices(how='left', keep=None): the two returned row selectors, read side by side, are exactly: for each left row in order, one output row per right row with an equal key (right rows in original order), or one output row with an invalid right index when there is none. No left row is lost, no pair is duplicated or invented; null/filtered keys match nothing.", "quantifier": "all pairs of left/right key columns (any lengths, any key multiplicities, with or without null keys)", "why_tests_cant": "the output size depends on key multiplicities in the data; a finite test set covers finitely many multiplicity patterns, and the index arithmetic (count, cumulated offsets, fused repeat) fails only for particular patterns (runs of zero-count rows, empty sides, trailing unmatched rows)", "anchors": ["riptable/rt_merge.py:_create_merge_fancy_indices.left_or_inner_join", "riptable/rt_merge.py:_build_right_fancyindex", "riptable/rt_merge.py:_build_right_fancyindex_impl", "riptable/rt_merge.py:_build_left_fancyindex", "riptable/rt_merge.py:_fused_arange_repeat", "riptable/rt_merge.py:_partial_repeat", "riptable/rt_merge.py:_fancy_index_fetch_keymap"]}
{"id": "C02", "title": "Inner join pairs exactly the matching rows", "statement": "merge_indices(how='inner', keep=None) returns, row by row, exactly the pairs (left row, right row) whose keys are equal and non-null, ordered by left row and then by right row; rows without partner on the other side do not occur.", "quantifier": "all pairs of left/right key columns", "why_tests_cant": "same arithmetic as left join plus zero-count rows that write past their own slot; wrong only for specific multiplicity patterns", "anchors": ["riptable/rt_merge.py:_create_merge_fancy_indices.left_or_inner_join", "riptable/rt_merge.py:_build_right_fancyindex_impl", "riptable/rt_merge.py:_build_left_fancyindex"]}
{"id": "C03", "title": "Right and outer joins", "statement": "merge_indices(how='right') is the left join with sides exchanged; merge_indices(how='outer') returns the left join rows followed by every right row that no left row matched, each exactly once, with an invalid left index.", "quantifier": "all pairs of left/right key columns", "why_tests_cant": "requires that the set of appended right rows is the exact complement of the matched ones for every key distribution", "anchors": ["riptable/rt_merge.py:_create_merge_fancy_indices", "riptable/rt_merge.py:_create_merge_fancy_indices.outer_join"]}
{"id": "C04", "title": "Keep first/last in joins", "statement": "With keep='first' (or 'last') for the right side, every left row of a left join occurs exactly once and is paired with the first (last) right row of equal key, or with no row if none exists; merge_lookup relies on this. Applied to both sides, each key occurs at most once on either side.", "quantifier": "all key columns and both keep modes", "why_tests_cant": "index tables are 0-based per group while group numbers are 1-based; an off-by-one shows only for particular group numberings", "anchors": ["riptable/rt_merge.py:_get_keep_ifirstlastkey", "riptable/rt_merge.py:_get_keep_ifirstlastkey_with_null", "riptable/rt_merge.py:_get_keep_ikey", "riptable/rt_merge.py:_get_keep_ncountgroup", "riptable/rt_merge.py:_build_right_fancyindex", "riptable/rt_merge.py:merge_lookup"]}
{"id": "C05", "title": "Backward as-of merge picks the latest earlier row", "statement": "For sorted 'on' columns, merge_asof(direction='backward') gives each left row the last right row whose key is <= the left key (or < when exact matches are not allowed), provided the distance is within tolerance; otherwise no row.", "quantifier": "all sorted left and right key columns of any length, tolerance present or not, exact matches allowed or not", "why_tests_cant": "a two-pointer loop: correctness is a loop invariant over all interleavings of the two columns, duplicates and boundary rows included", "anchors": ["riptable/rt_merge_asof.py:_merge_asof_backward", "riptable/rt_merge_asof.py:_create_merge_asof_fancy_indices"]}
{"id": "C06", "title": "Forward as-of merge picks the earliest later row", "statement": "For sorted 'on' columns, merge_asof(direction='forward') gives each left row the first right row whose key is >= the left key (or > when exact matches are not allowed), provided the distance is within tolerance; otherwise no row.", "quantifier": "all sorted left and right key columns, tolerance, exact-match flag", "why_tests_cant": "mirror loop running from the end, with its own boundary handling", "anchors": ["riptable/rt_merge_asof.py:_merge_asof_forward", "riptable/rt_merge_asof.py:_create_merge_asof_fancy_indices"]}
{"id": "C07", "title": "Grouped as-of merge equals the ungrouped merge inside each key", "statement": "merge_asof with a 'by' key gives each left row the row that the ungrouped as-of merge restricted to right rows with the same 'by' key would give; left rows whose key is absent on the right get no row.", "quantifier": "all key columns, all group structures, both directions", "why_tests_cant": "the group tables are addressed through three levels of indirection (group map, first row of group, group order)", "anchors": ["riptable/rt_merge_asof.py:_merge_asof_grouped_backward", "riptable/rt_merge_asof.py:_merge_asof_grouped_forward"]}
{"id": "C08", "title": "Nearest as-of merge", "statement": "merge_asof(direction='nearest') selects for every left row a right row at minimal distance among all right rows; ties go to the backward row; rows with no candidate get none.", "quantifier": "all sorted left and right key columns", "why_tests_cant": "minimality over all right rows is a universally quantified claim", "anchors": ["riptable/rt_merge_asof.py:_merge_asof_combine_into_nearest"]}
{"id": "C09", "title": "As-of merge rejects unsorted input", "statement": "If the 'on' column of either side is not sorted in ascending order, merge_asof raises instead of returning a result.", "quantifier": "all unsorted inputs", "why_tests_cant": "detection happens only at visited elements; a test shows a detected case, never that no case escapes", "anchors": ["riptable/rt_merge_asof.py:_merge_asof_backward", "riptable/rt_merge_asof.py:_create_merge_asof_fancy_indices"]}
{"id": "C10", "title": "Output column names of a merge never collide", "statement": "merge_lookup/merge2 either raises or produces output column names that are pairwise distinct, with every requested column of both sides present under exactly one output name; only overlapping non-key columns are renamed, and by the given suffixes.", "quantifier": "all column name sets, key name sets and suffix pairs", "why_tests_cant": "collisions need particular name/suffix combinations (x, x_y with suffix _y)", "anchors": ["riptable/rt_merge.py:_construct_colname_mapping"]}
{"id": "C11", "title": "Renaming a column keeps order, values and all other columns", "statement": "Struct/Dataset.col_rename(old, new) either raises and leaves the container unchanged or yields the same ordered list of columns with only that one name replaced; attributes stay attached.", "quantifier": "all containers, all names", "why_tests_cant": "must hold for each position and each pre-existing name set", "anchors": ["riptable/rt_itemcontainer.py:ItemContainer.item_rename", "riptable/rt_struct.py:Struct.col_rename"]}
{"id": "C12", "title": "Reordering columns is a permutation", "statement": "col_move_to_front(cols)/col_move_to_back(cols) never lose, duplicate or alter a column: the listed existing columns come first (last) in the listed order and all others keep their relative order.", "quantifier": "all containers and all lists of names, including duplicates and unknown names", "why_tests_cant": "must hold for every list incl. repeated and unknown names", "anchors": ["riptable/rt_itemcontainer.py:ItemContainer.item_move_to_front", "riptable/rt_itemcontainer.py:ItemContainer.item_move_to_back"]}
{"id": "C13", "title": "Bulk renames never lose a column", "statement": "col_add_prefix, col_add_suffix and col_str_replace yield as many columns as before, each with its own value and in order, or raise.", "quantifier": "all containers, all prefixes/suffixes/replacement pairs", "why_tests_cant": "two distinct names can be rewritten to the same new name only for special name pairs", "anchors": ["riptable/rt_itemcontainer.py:ItemContainer.item_add_prefix", "riptable/rt_itemcontainer.py:ItemContainer.item_add_suffix", "riptable/rt_itemcontainer.py:ItemContainer.item_str_replace"]}
{"id": "C14", "title": "col_map renames simultaneously", "statement": "Struct.col_map(d) with injective d behaves like a simultaneous rename: after success, the value found under d.get(n, n) is the value previously found under n, for every column n - including chains (a->b, b->c) and cycles (a->b, b->a).", "quantifier": "all containers and all rename dictionaries", "why_tests_cant": "the implementation orders single renames and swaps; only particular chain/cycle shapes could lose data", "anchors": ["riptable/rt_struct.py:Struct.col_map", "riptable/rt_struct.py:Struct._safe_reordering_of_renames", "riptable/rt_struct.py:Struct._get_seq", "riptable/rt_struct.py:Struct.col_swap"]}
{"id": "C15", "title": "A copied container is independent of the original", "statement": "After copying a Struct/Dataset (shallow copy of the item container), adding, deleting, renaming, reordering, re-labelling columns or setting column attributes on the copy does not change what the original reports, and vice versa.", "quantifier": "all containers and all sequences of operations on either copy", "why_tests_cant": "aliasing shows only after particular interleavings of operations on both objects", "anchors": ["riptable/rt_itemcontainer.py:ItemContainer.copy", "riptable/rt_itemcontainer.py:ItemContainer.item_set_attribute", "riptable/rt_itemcontainer.py:ItemContainer._tagged_set_names"]}
{"id": "C16", "title": "Label columns are reported as set", "statement": "label_set_names(names) followed by label_get_names() returns exactly the existing columns among names, in the given order; setting again replaces the previous labels; label_remove leaves none. Summary columns behave likewise and independently.", "quantifier": "all containers and sequences of label operations", "why_tests_cant": "ordering is stored as per-column tags and must survive every history", "anchors": ["riptable/rt_itemcontainer.py:ItemContainer._tagged_set_names", "riptable/rt_itemcontainer.py:ItemContainer._tagged_get_names", "riptable/rt_itemcontainer.py:ItemContainer._tagged_remove"]}
{"id": "C17", "title": "fill_forward fills with the last valid value, at most limit times", "statement": "FastArray.fill_forward returns an array of the same length where valid entries are unchanged and an invalid entry becomes the nearest preceding valid value (fill_val, which defaults to the invalid value, if none precedes), provided the distance to that value (to the start of the array, if none precedes) is at most `limit`; limit 0/None means any distance; otherwise the entry stays invalid.", "quantifier": "all arrays, limits and fill values", "why_tests_cant": "the fill counter and last-value register form a loop invariant", "anchors": ["riptable/rt_fastarraynumba.py:fill_forward_float", "riptable/rt_fastarraynumba.py:fill_forward_int", "riptable/rt_fastarraynumba.py:fill_forward"]}
{"id": "C18", "title": "fill_backward is fill_forward on the reversed array", "statement": "FastArray.fill_backward(a) equals reverse(fill_forward(reverse(a))) for all inputs.", "quantifier": "all arrays, limits and fill values", "why_tests_cant": "relates two independently written loops on all inputs", "anchors": ["riptable/rt_fastarraynumba.py:fill_backward_float", "riptable/rt_fastarraynumba.py:fill_backward_int", "riptable/rt_fastarraynumba.py:fill_backward"]}
{"id": "C19", "title": "Running minimum and maximum", "statement": "cummin/cummax with skipna=True return at each position the minimum/maximum of the valid values up to that position, and invalid where no valid value has occurred; with skipna=False the result is invalid from the first invalid value on.", "quantifier": "all arrays of any length and both integer and float element types", "why_tests_cant": "prefix property for every position of every array; integer sentinel invalids behave differently from NaN under comparison", "anchors": ["riptable/rt_fastarraynumba.py:nb_cummin_int", "riptable/rt_fastarraynumba.py:nb_cummin_float", "riptable/rt_fastarraynumba.py:nb_cummax_int", "riptable/rt_fastarraynumba.py:nb_cummax_float"]}
{"id": "C20", "title": "Splitting group-by work over threads computes every group exactly once", "statement": "The work split used by numba group-by assigns every group to exactly one thread, so the result of a group-by aggregation does not depend on the thread count or on the order in which threads run.", "quantifier": "all numbers of groups and cores, all schedules", "why_tests_cant": "quantifies over thread counts and interleavings", "anchors": ["riptable/rt_groupbynumba.py:GroupbyNumba.build_core_list", "riptable/rt_groupbynumba.py:GroupbyNumba._nb_groupbycalculateall"]}
{"id": "C21", "title": "Group-by sum and min do not depend on row order", "statement": "The numba group-by sum and min of a group equal the sum/minimum over the multiset of the valid values in the group; permuting rows does not change them.", "quantifier": "all value columns, group assignments and row permutations", "why_tests_cant": "permutation invariance over all permutations", "anchors": ["riptable/rt_groupbynumba.py:GroupbyNumba._numbasum", "riptable/rt_groupbynumba.py:GroupbyNumba._numbamin"]}
{"id": "C22", "title": "String length, upper and lower work per character and respect padding", "statement": "FAString.strlen equals the number of characters before padding; upper/lower change exactly ASCII letters, keep lengths, and are idempotent.", "quantifier": "all fixed-width string arrays of any width and row count", "why_tests_cant": "per-character and per-row claims over all byte contents", "anchors": ["riptable/rt_str.py:FAString._nb_upper", "riptable/rt_str.py:FAString._nb_lower", "riptable/rt_str.py:FAString._nb_strlen"]}
{"id": "C23", "title": "String search functions agree with Python", "statement": "FAString.startswith/endswith/contains/index (strpos) agree with Python str.startswith/endswith/in/find on every row.", "quantifier": "all rows, all needles, all widths", "why_tests_cant": "substring search over all positions; boundary cases at the end of fixed-width buffers", "anchors": ["riptable/rt_str.py:FAString._nb_startswith", "riptable/rt_str.py:FAString._nb_endswith", "riptable/rt_str.py:FAString._nb_contains", "riptable/rt_str.py:FAString._nb_index", "riptable/rt_str.py:FAString._nb_find"]}
{"id": "C24", "title": "String replace agrees with Python", "statement": "FAString.replace(old, new) yields on every row the result of Python's left-to-right non-overlapping replacement, without truncation: the computed output width suffices for all rows.", "quantifier": "all rows, all old/new pairs", "why_tests_cant": "output width depends on match counts across all rows", "anchors": ["riptable/rt_str.py:FAString._nb_find", "riptable/rt_str.py:FAString._nb_replace", "riptable/rt_str.py:FAString.replace"]}
{"id": "C25", "title": "substr and reverse", "statement": "FAString.substr(start, stop) equals the Python slice s[start:stop] of each row for all integers start/stop incl. negatives; reverse yields the reversed string and applying it twice is the identity.", "quantifier": "all rows, all start/stop values", "why_tests_cant": "negative and out-of-range offsets combine with each row's own length", "anchors": ["riptable/rt_str.py:FAString._nb_substr", "riptable/rt_str.py:FAString._substr", "riptable/rt_str.py:FAString._nb_reverse"]}
{"id": "C26", "title": "Sort cache never serves a stale order", "statement": "After any history of sorts, column changes and invalidations, the sorted row order returned for a container equals the order computed afresh from its current sort columns (assuming checksums distinguish the column contents involved).", "quantifier": "all histories of sort/modify/invalidate operations on any number of containers", "why_tests_cant": "stale-cache bugs need particular histories", "anchors": ["riptable/rt_sort_cache.py:SortCache.get_sorted_row_index", "riptable/rt_sort_cache.py:SortCache.store_sort", "riptable/rt_sort_cache.py:SortCache.invalidate"]}
{"id": "C27", "title": "Stacking categoricals preserves every row's label", "statement": "Concatenating categoricals (hstack) yields a categorical whose rows decode to the concatenation of the decoded inputs, filtered rows stay filtered, and its categories are distinct.", "quantifier": "all lists of categoricals with any categories/overlaps", "why_tests_cant": "re-indexing depends on the overlap pattern of the category lists", "anchors": ["riptable/rt_grouping.py:hstack_groupings", "riptable/rt_grouping.py:merge_cats", "riptable/rt_hstack.py:_hstack_categorical"]}
{"id": "C28", "title": "Editing categories changes only the edited label", "statement": "category_add changes no row; category_remove(x) turns exactly the rows labelled x into filtered rows and leaves every other row's label; category_replace(x, y) relabels exactly the rows labelled x as y.", "quantifier": "all categoricals and all sequences of such edits", "why_tests_cant": "codes of all later categories are shifted; must hold for each position and history", "anchors": ["riptable/rt_categorical.py:Categories._array_edit", "riptable/rt_categorical.py:Categorical.category_remove", "riptable/rt_categorical.py:Categorical.category_replace", "riptable/rt_categorical.py:Categorical.category_add"]}
{"id": "C29", "title": "Assigning a label changes only the assigned rows", "statement": "c[i] = label (with automatic category creation) makes row i decode to label and leaves the decoded label of every other row, filtered rows included, unchanged.", "quantifier": "all categoricals, row positions and labels", "why_tests_cant": "creation of a new category re-sorts and re-codes all rows", "anchors": ["riptable/rt_categorical.py:Categories._possibly_add_categories", "riptable/rt_categorical.py:Categorical.__setitem__"]}
{"id": "C30", "title": "Code mappings stay one-to-one", "statement": "For a mapping-mode categorical, after any sequence of mapping_add/remove/replace, looking up the label of a code and then the code of that label returns the same code, and an operation that raises changes nothing.", "quantifier": "all mappings and operation sequences", "why_tests_cant": "two dictionaries maintained in parallel diverge only after particular histories", "anchors": ["riptable/rt_categorical.py:Categories._mapping_edit", "riptable/rt_grouping.py:GroupingEnum"]}
{"id": "C31", "title": "Operations on filtered rows never borrow another category", "statement": "Rows that are filtered (code 0) are never treated as members of a category: isin() is False on them, count(transform=True) does not give them another group's count, comparisons with a label are False.", "quantifier": "all categoricals with filtered rows", "why_tests_cant": "needs a filtered row and a particular last category", "anchors": ["riptable/rt_grouping.py:Grouping.isin", "riptable/rt_grouping.py:Grouping.count", "riptable/rt_categorical.py:Categorical._categorical_compare_check"]}
{"id": "C32", "title": "Calendar fields are those of the Gregorian calendar", "statement": "Date.year, .month, .day_of_month, .day_of_year and .day_of_week of a day number are the proleptic Gregorian date fields of that day.", "quantifier": "all day numbers", "why_tests_cant": "lookup tables with a finite horizon: each boundary day matters", "anchors": ["riptable/rt_datetime.py:UTC_1970_DAY_SPLITS", "riptable/rt_datetime.py:TimeStampBase._year", "riptable/rt_datetime.py:TimeStampBase._month", "riptable/rt_datetime.py:Date.day_of_month", "riptable/rt_datetime.py:Date.day_of_week"]}
{"id": "C33", "title": "Local time to UTC and back is the identity", "statement": "For every supported time zone, converting a local wall-clock time that exists to UTC (to_utc) and back for display (fix_dst) returns the same wall-clock time; converting a UTC instant to local time and back returns the same instant except in the repeated hour at the end of daylight saving.", "quantifier": "all instants (nanosecond resolution) and all zones", "why_tests_cant": "failures are confined to single instants at the switch-over", "anchors": ["riptable/rt_timezone.py:TimeZone.to_utc", "riptable/rt_timezone.py:TimeZone.fix_dst", "riptable/rt_timezone.py:TimeZone._mask_dst", "riptable/rt_timezone.py:DST_CUTOFFS_NYC", "riptable/rt_timezone.py:DST_REVERSE_NYC"]}
{"id": "C34", "title": "Column count equals the number of columns", "statement": "After any sequence of attribute assignments and deletions on a Struct, get_ncols() equals the number of column names listed by keys(), and a locked Struct's columns cannot be changed by any public column operation.", "quantifier": "all operation sequences", "why_tests_cant": "the counter is kept separately from the table and drifts only after particular histories", "anchors": ["riptable/rt_struct.py:Struct.__setattr__", "riptable/rt_struct.py:Struct._addnewitem", "riptable/rt_struct.py:Struct._replaceitem", "riptable/rt_struct.py:Struct._deleteitem", "riptable/rt_struct.py:Struct.col_add_prefix"]}
{"id": "C35", "title": "Quantiles of integer columns ignore invalid entries only", "statement": "quantile() of an integer column equals the quantile of the valid entries: invalid entries are ignored and no valid entry is.", "quantifier": "all integer columns and all quantile fractions", "why_tests_cant": "any number of invalid entries at any position", "anchors": ["riptable/rt_utils.py:quantile", "riptable/rt_utils.py:interpolate", "riptable/rt_utils.py:describe_helper"]}
{"id": "C36", "title": "Stacking datasets aligns rows", "statement": "Stacking datasets with different column sets yields, for every column, exactly the total number of rows; rows of a dataset that lacks the column are invalid and every present value stays at its own row.", "quantifier": "all lists of datasets and column sets", "why_tests_cant": "gap counters accumulate across runs of datasets lacking the column", "anchors": ["riptable/rt_hstack.py:_hstack_dataset", "riptable/rt_hstack.py:_possibly_add_concat_gap"]}
{"id": "C37", "title": "Joins do not depend on thread scheduling or buffer contents", "statement": "The row selectors returned by a merge are the same for every order in which the parallel loops execute their iterations and for every initial content of freshly allocated buffers.", "quantifier": "all inputs, all schedules of the parallel loops, all buffer contents", "why_tests_cant": "a race or an unwritten cell shows only under particular schedules or memory contents", "anchors": ["riptable/rt_merge.py:_partial_repeat", "riptable/rt_merge.py:_fused_arange_repeat", "riptable/rt_merge.py:_build_right_fancyindex_impl"]}
{"id": "C38", "title": "Grouped as-of merge is independent of thread scheduling", "statement": "For any two orders in which the parallel iterations over the by-groups are executed, merge_asof with `by` keys returns the same match for every row, or the same error, also when the key columns hold NaN or are unsorted.", "quantifier": "all pairs of execution orders of the groups, all by-key columns and on-key columns, all tolerances and directions", "why_tests_cant": "Schedules depend on the thread pool; a test run observes one of them.", "anchors": ["riptable/rt_merge_asof.py:_merge_asof_grouped_backward", "riptable/rt_merge_asof.py:_merge_asof_grouped_forward", "riptable/rt_merge_asof.py:_create_merge_asof_grouped_fancy_indices"]}
{"id": "C39", "title": "Recorded sort columns exist", "statement": "After any sequence of column additions, removals, renames (including prefixes, suffixes and simultaneous renames), moves and sorts, every column a Struct/Dataset says it is sorted by is one of its current columns.", "quantifier": "all histories of column operations whose new names are admissible", "why_tests_cant": "a stale name in the sort list only shows after a particular interleaving of sort and rename/remove", "anchors": ["riptable/rt_struct.py:Struct._update_sort", "riptable/rt_struct.py:Struct.col_rename", "riptable/rt_struct.py:Struct._deleteitem"]}
{"id": "C40", "title": "Assignment, deletion and removal of columns", "statement": "Assigning an admissible name on an unlocked Struct makes exactly that name hold the value (a new column comes last, nothing else changes); del removes exactly that column; col_remove(list) removes exactly the listed columns, tolerating repetitions, keeps order and values of the rest, and raises without effect when asked to on unknown names.", "quantifier": "all structs, names, values and lists of names", "why_tests_cant": "depends on the interplay of name checks, the item table and the sort list for arbitrary histories", "anchors": ["riptable/rt_struct.py:Struct.__setattr__", "riptable/rt_struct.py:Struct.__delattr__", "riptable/rt_struct.py:Struct.col_remove"]}
{"id": "C41", "title": "Grouped fills fill every group on its own", "statement": "Filling NaN/invalid values forward or backward through a group-by or Categorical gives, for every group, exactly the plain fill of that group's values in row order (limit and fill value per group), no matter how groups are interleaved in the table, how many threads run and in which order; without inplace the input column is unchanged. Rows outside every group keep a meaningful value.", "quantifier": "all columns, groupings, limits, fill values, directions, schedules", "why_tests_cant": "per-group semantics over all interleavings of groups and threads", "anchors": ["riptable/rt_groupbynumba.py:GroupbyNumba.nb_fill_forward", "riptable/rt_groupbynumba.py:GroupbyNumba.nb_fill_backward", "riptable/rt_groupbynumba.py:GroupbyNumba._numba_fill_direction", "riptable/rt_categorical.py:Categorical.fill_forward"]}
{"id": "C42", "title": "Grouped exponential decay is the decayed sum", "statement": "The grouped EMA gives each row the sum over the rows of its group up to and including it, each value weighted by exp(-rate * age); thread order does not matter.", "quantifier": "all columns, times, groupings, schedules (exact arithmetic)", "why_tests_cant": "closed form over sequences of every length", "anchors": ["riptable/rt_groupbynumba.py:GroupbyNumba.nb_ema", "riptable/rt_groupbynumba.py:GroupbyNumba._numbaEMA"]}
{"id": "C43", "title": "A merge returns exactly the joined rows, column by column", "statement": "For merge2 with any `how`, any number of key columns, any suffixes, column selection and indicator: if the call returns, every requested column of the left (right) Dataset appears once under its documented name and its value in each output row is the value of that row's left (right) partner, or missing when there is none; a key column with the same name on both sides shows the key of the row; the indicator column says for each row which sides it comes from; there are no other columns. Name clashes, an occupied indicator name and absent columns are refused.", "quantifier": "all pairs of Datasets, key columns, row orders, null positions, suffixes, column selections and indicator settings", "why_tests_cant": "the product of join type, index elision (None selectors), right-only tail and name resolution has unboundedly many cases; a test fixes one table pair", "anchors": ["riptable/rt_merge.py:merge2", "riptable/rt_merge.py:_construct_colname_mapping", "riptable/rt_merge.py:merge_indices", "riptable/rt_merge.py:_get_or_create_keygroup"]}
{"id": "C44", "title": "validate rejects exactly the repeated keys", "statement": "merge2/merge_indices with validate='1:1', '1:m' or 'm:1' (no keep) raise if and only if some non-null key occurs more than once on a side declared unique; 'm:m' never raises.", "quantifier": "all key columns and both sides", "why_tests_cant": "absence of duplicates must be decided for every possible key column", "anchors": ["riptable/rt_merge.py:_validate_groupings"]}
{"id": "C45", "title": "merge_lookup keeps the left rows and looks up one partner each", "statement": "merge_lookup returns one row per left row in the original order; right columns hold the values of the first (last) right row with that key for keep='first' ('last'), missing values if there is none; with keep=None it raises when a non-null key repeats in right and otherwise uses the only partner; with require_match=True it raises as soon as one left row has no partner.", "quantifier": "all pairs of Datasets, keys, null positions and keep modes", "why_tests_cant": "must hold for every multiplicity pattern of keys", "anchors": ["riptable/rt_merge.py:merge_lookup", "riptable/rt_merge.py:merge2"]}
{"id": "C46", "title": "String functions on a Categorical act on each row", "statement": "For a string Categorical c, c.str.f(...) gives row by row what f gives on the row's string: numeric and boolean results with the invalid value on filtered rows; string results as a Categorical with distinct labels in which filtered rows stay filtered.", "quantifier": "all Categoricals (codes, labels, filtered rows) and all string functions, also those that make labels equal", "why_tests_cant": "relabelling merges labels in arbitrary patterns; a test fixes one pattern", "anchors": ["riptable/rt_str.py:CatString", "riptable/rt_str.py:_SubStrAccessor", "riptable/rt_categorical.py:Categorical._from_maybe_non_unique_labels"]}
{"id": "C47", "title": "Sorting a Dataset reorders whole rows", "statement": "sort_view, sort_copy and sort_inplace order the rows by the given columns, first column first, each in its own direction; sort_copy and sort_inplace apply one reordering to every column, so the values of a row stay together. A copy or column subset of a Dataset with a sort order keeps that order on the sort columns it keeps.", "quantifier": "all Datasets, lists of sort columns and direction lists, all column subsets", "why_tests_cant": "two reversals (of keys and of directions) have to agree for every number of keys; rows must stay together for every column", "anchors": ["riptable/rt_dataset.py:Dataset._sort_values", "riptable/rt_dataset.py:Dataset._sort_lexsort", "riptable/rt_dataset.py:Dataset._copy_attributes"]}
{"id": "C48", "title": "Stacking a dictionary labels every row with its item", "statement": "hstack_dict() returns the stacked rows and a Categorical that gives every row the name of the dictionary item it came from.", "quantifier": "all dictionaries of arrays or Datasets of any lengths, including empty ones", "why_tests_cant": "the integer type of the codes is chosen by the number of rows, not of items", "anchors": ["riptable/rt_hstack.py:hstack_dict", "riptable/rt_enum.py:int_dtype_from_len"]}
{"id": "C49", "title": "Fields of a DateTimeNano are those of its displayed time", "statement": "year(), month(), day_of_month, day_of_year, day_of_week, start_of_week, yyyymmdd, the time of day (hour, minute, second, nanos_since_midnight) and date() of a DateTimeNano are the Gregorian date and the time of day that it displays in its to_tz.", "quantifier": "all instants, all time zones", "why_tests_cant": "dates near midnight and near the ends of years and months differ between UTC and local time; a test fixes one instant per zone", "anchors": ["riptable/rt_datetime.py:DateTimeNano.year", "riptable/rt_datetime.py:DateTimeNano.month", "riptable/rt_datetime.py:DateTimeNano.day_of_month", "riptable/rt_datetime.py:DateTimeNano.date", "riptable/rt_datetime.py:DateTimeNano.yyyymmdd", "riptable/rt_datetime.py:DateTimeNano._time_fraction"]}
{"id": "C50", "title": "Daylight saving time follows the rules in law", "statement": "is_dst, tz_offset and the displayed time use daylight saving time in New York, Dublin and Sydney exactly when the rules in law say so.", "quantifier": "all instants of the years covered", "why_tests_cant": "there are two switches per year and zone; a test checks a handful", "anchors": ["riptable/rt_timezone.py:DST_REVERSE_NYC", "riptable/rt_timezone.py:DST_REVERSE_DUBLIN", "riptable/rt_timezone.py:DST_REVERSE_SYDNEY"]}
{"id": "C51", "title": "Listing the rows of groups does not depend on what was computed before", "statement": "Iterating over a Categorical, grouping.iter_groups, igroup/ifirstgroup/ncountgroup, as_filter(), first_fancy/last_fancy, count() and get_groupings() describe the groups of the current rows, whatever was computed on the same object before.", "quantifier": "all group codes, all histories of computations with and without filters, listings, counts and replacements of the codes", "why_tests_cant": "the packing of the groups is cached inside the shared grouping object; a test calls one operation on a fresh object", "anchors": ["riptable/rt_grouping.py:Grouping.pack_by_group", "riptable/rt_grouping.py:Grouping.get_groupings", "riptable/rt_grouping.py:Grouping.count", "riptable/rt_groupbyops.py:GroupByOps.first_fancy"]}
{"id": "C52", "title": "apply_reduce and apply_nonreduce give each group its own result", "statement": "apply_reduce(f, columns) shows for every group f applied to the values of the group's rows in their order, in every column; apply_nonreduce(f, columns) gives every row the entry of f's result for its group that belongs to the row.", "quantifier": "all functions, columns, group codes, filters and output types", "why_tests_cant": "results of all groups and columns are written to arrays whose type is chosen from the first result; tests use one column and results of one type", "anchors": ["riptable/rt_grouping.py:Grouping._apply_helper", "riptable/rt_groupbyops.py:GroupByOps.apply_reduce", "riptable/rt_groupbyops.py:GroupByOps.apply_nonreduce"]}
{"id": "C53", "title": "apply labels the rows of its result with the groups they come from", "statement": "apply(f) gives one row per group with the label of the group whose rows f was applied to; if f keeps the number of rows, the result has its rows in the places of the original rows, and rows that belong to no group are invalid.", "quantifier": "all functions on rows, all group codes, groups without rows, display orders", "why_tests_cant": "whether results are labelled or put in place is guessed from the number of result rows; tests do not reach the coincidences", "anchors": ["riptable/rt_grouping.py:Grouping.apply"]}
{"id": "C54", "title": "Labels and values of grouped results belong to the same group", "statement": "Every row of the result of a grouped computation holds the label and the value of one group, for every display order, with and without the filtered rows, whatever labels were asked for before on the same object.", "quantifier": "all labels, values, sort orders, histories of requests for labels", "why_tests_cant": "labels are sorted in place once and the filter label is prepended permanently, while values are sorted for each result; the two can only be compared over all histories", "anchors": ["riptable/rt_groupbykeys.py:GroupByKeys.keys", "riptable/rt_groupbykeys.py:GroupByKeys.gbkeys_filtered", "riptable/rt_grouping.py:Grouping._finalize_dataset"]}
{"id": "C55", "title": "transform gives every row the value of its own group", "statement": "With transform=True every row of a group gets the value computed for its group, and rows that belong to no group get the invalid value.", "quantifier": "all group codes, base indexes and display orders", "why_tests_cant": "tests transform base-1 Categoricals without filtered rows", "anchors": ["riptable/rt_groupbyops.py:GroupByOps._possibly_transform"]}
{"id": "C56", "title": "shrink keeps the labels of the rows", "statement": "shrink(newcats) gives a Categorical in which every row whose label is among the new categories keeps its label, and every other row is filtered or has the misc label.", "quantifier": "all Categoricals, new categories in any order, with and without a misc label", "why_tests_cant": "the code of the misc label is computed from the matches between old and new categories", "anchors": ["riptable/rt_grouping.py:Grouping.shrink", "riptable/rt_categorical.py:Categorical.shrink"]}
{"id": "C57", "title": "Filtering a Categorical and dropping unused categories keeps the labels of the rows", "statement": "filter() of a Categorical (Grouping.regroup) keeps the label of every row that passes, makes the others filtered rows, and keeps exactly the categories that still have rows, in their old order.", "quantifier": "all Categoricals and filters", "why_tests_cant": "codes are renumbered through three permutations; a wrong one shows only for suitable orders of first appearance", "anchors": ["riptable/rt_grouping.py:Grouping.regroup"]}
{"id": "C58", "title": "take_groups and extract_groups return the rows of the wanted groups", "statement": "take_groups(indices) returns the values of the rows of the wanted groups one group after the other, extract_groups(condition) those of the groups with a true condition; a group that does not exist is an error.", "quantifier": "all grouped data, wanted groups in any order and repetition", "why_tests_cant": "offsets of groups are running sums over all groups; a test checks a few of them", "anchors": ["riptable/rt_grouping.py:Grouping.take_groups", "riptable/rt_grouping.py:Grouping.extract_groups"]}
{"id": "C59", "title": "count_uniques counts the different values of each group", "statement": "count_uniques(x) shows for every group the number of different values of x among its rows that pass the filter.", "quantifier": "all group codes, values and filters", "why_tests_cant": "pairs of code and value are grouped a second time and counted by code; tests use one base index", "anchors": ["riptable/rt_groupbyops.py:GroupByOps.count_uniques"]}
{"id": "C60", "title": "As-of merge keeps the left Dataset and adds matching right rows", "statement": "The Dataset returned by an as-of merge has exactly the rows of the left Dataset, in order, with every requested left column unchanged; every requested right column holds, beside each left row, the value of the right row chosen by the direction, `by` key, tolerance and exact-match settings, and a missing value if there is none; names are resolved as in a merge, `matched_on` holds the matched key, and there are no other columns.", "quantifier": "all pairs of Datasets, `on` and `by` columns, suffixes, column selections, directions, tolerances, and group processing orders", "why_tests_cant": "The rows chosen, the null handling of the by keys on the two sides and the names interact; only a proof covers every combination.", "anchors": ["riptable/rt_merge_asof.py:merge_asof2", "riptable/rt_merge.py:_construct_colname_mapping"]}
{"id": "C61", "title": "As-of tolerance means what was asked for", "statement": "A tolerance accepted by an as-of merge admits exactly the key distances that are at most the requested amount, also when it is a fraction on integer keys or a time span on date-time keys; negative and NaN tolerances are refused, and so are numbers on date-time keys and time spans on plain keys.", "quantifier": "all tolerance values of every accepted type, all key types, all distances", "why_tests_cant": "Conversions between numeric types go wrong only at range ends that examples do not visit.", "anchors": ["riptable/rt_merge_asof.py:_validate_and_normalize_tolerance"]}
{"id": "C62", "title": "Binning quantiles interpolate between the finite values", "statement": "`rt.quantile(x, q)` with the default interpolation returns, for every fraction between 0 and 1, the value at position q*(n-1) of the n finite values in ascending order, interpolated linearly between the two neighbours when the position is not whole. NaN and infinite values never take part, wherever they stand; without finite values the result is NaN. With `interpolation_method` 'lower' or 'higher' the result is the lower or upper neighbour.", "quantifier": "all columns with any arrangement of NaN and infinities, all lists of fractions in [0, 1]", "why_tests_cant": "The window of finite values depends on how many NaN, inf and -inf there are and how they sort; off-by-one errors show only for certain counts and fractions.", "anchors": ["riptable/rt_bin.py:quantile"]}
{"id": "C63", "title": "cut puts every value in the bin whose edges enclose it", "statement": "`rt.cut(x, bins)` with the default `right`: with a list of edges, a value that passes the filter gets the bin with lower edge < value <= upper edge (the first bin also holds its lower edge) and the label of that bin, while NaN, values outside the edges and rows that do not pass the filter are filtered. With a number of bins, there are that many bins of equal width from the smallest to the largest value and every number is in one of them. Edges that are not ascending, duplicate edges (unless duplicates='drop'), a bin count below one, and a wrong number of labels are refused.", "quantifier": "all columns, edges, bin counts, filters and labels", "why_tests_cant": "Boundary values, constant columns, duplicates and label alignment interact; tests fix a handful of edges.", "anchors": ["riptable/rt_bin.py:cut", "riptable/rt_bin.py:_bins_to_cuts_new", "riptable/rt_bin.py:_format_labels"]}
{"id": "C64", "title": "qcut bins by the quantiles of the data and never clips a number for an integer q", "statement": "`rt.qcut(x, q)`: the bin edges are exactly the quantiles of the finite values that pass the filter. A number between the edges has the label of the bin that encloses it; a number outside has the label 'Clipped'. If q is a number of bins, no number that passes the filter is clipped.", "quantifier": "all columns with NaN and infinities, all q, filters and labels, duplicates raised or dropped", "why_tests_cant": "Whether the extreme values fall inside depends on the interpolation at both ends and on how duplicates are dropped, for every arrangement of values.", "anchors": ["riptable/rt_bin.py:qcut", "riptable/rt_bin.py:quantile", "riptable/rt_bin.py:_bins_to_cuts_new"]}
{"id": "C65", "title": "Every cell of an Accum2 table aggregates exactly the rows with its two labels", "statement": "For `ac = Accum2(rowcat, colcat)` and any reduction, the table returned has one column per label of `colcat` and one row per label of `rowcat`, both in display order; the value in a cell is the reduction of exactly the data rows that carry the row's label and the column's label and pass the filter. With showfilter=True the extra row and column hold the rows without a label. `ac[i]` shows the two labels of row i.", "quantifier": "all label sets, display orders, data, filters, reductions", "why_tests_cant": "Sorting for display, the extra filtered row and column and the two-dimensional bin numbering interact; tests use one table with one order.", "anchors": ["riptable/rt_accum2.py:Accum2.make_dataset", "riptable/rt_accum2.py:Accum2._internal_getitem", "riptable/rt_grouping.py:combine2groups"]}
{"id": "C66", "title": "The margins of an Accum2 table are the reduction of everything in the row, the column, the table", "statement": "In an Accum2 table the total of a row is the reduction of all data rows counted in this row of the table, the footer of a column the reduction of all data rows counted in this column, and the corner the reduction of all data rows in the table; each total stands beside the label it belongs to.", "quantifier": "all label sets, display orders, base indexes, data, filters, showfilter on and off; all reductions", "why_tests_cant": "Totals come from the cells for some functions and from the data for others, with separate reordering; a test table with sorted labels and no filtered rows cannot tell them apart.", "anchors": ["riptable/rt_accum2.py:Accum2._calc_onepass", "riptable/rt_accum2.py:Accum2._calc_multipass", "riptable/rt_accum2.py:Accum2._accum1_pass", "riptable/rt_accum2.py:Accum2._apply_2d_operation", "riptable/rt_accum2.py:Accum2._add_totals"]}
{"id": "C67", "title": "A saved and loaded Accum2 has the same rows and columns", "statement": "Saving an Accum2 to SDS and loading it gives an Accum2 whose rows Categorical and columns Categorical are those of the original.", "quantifier": "all Accum2", "why_tests_cant": "The two Categoricals have the same type, so exchanging them raises nothing; tests that compare only existence or totals pass.", "anchors": ["riptable/rt_accum2.py:Accum2._build_sds_meta_data", "riptable/rt_accum2.py:Accum2._load_from_sds_meta_data"]}
{"id": "C68", "title": "ismember finds every number of the first array in the second, and only those", "statement": "`rt.ismember(a, b)` on numeric arrays of any two numeric types: for every element of `a` it reports the position of the first element of `b` that is the same number, and False/missing if there is none. NaN is never found; a missing integer matches only missing integers. With base_index=1 the positions count from 1 and 0 means none.", "quantifier": "all arrays of all pairs of integer and float types and all values", "why_tests_cant": "Whether two types have a common type that holds all values, and which values survive the conversion, depends on both types and on single values near 2**53 and 2**63.", "anchors": ["riptable/rt_numpy.py:ismember", "riptable/rt_numpy.py:_find_lossless_common_type", "riptable/rt_numpy.py:_find_lossless_common_array_type"]}
{"id": "C69", "title": "Multi-key ismember and assoc_copy match whole rows", "statement": "`rt.ismember([a1, a2, ...], [b1, b2, ...])` reports for every row the first row of the second keys that has the same value in all columns; `rt.assoc_copy(key1, key2, arr)` gives each row of `key1` the value of `arr` at that row, or a missing value.", "quantifier": "all numbers of columns, types and values", "why_tests_cant": "The columns are converted pairwise; a match needs all of them at one position, for every row.", "anchors": ["riptable/rt_numpy.py:_ismember_align_multikey", "riptable/rt_numpy.py:ismember", "riptable/rt_numpy.py:assoc_copy"]}
{"id": "C70", "title": "isin of a numeric Categorical is True exactly for rows with one of the values", "statement": "`cat.isin([v1, v2, ...])` for a Categorical of numbers is True exactly for the rows whose label equals one of the values and False on filtered rows.", "quantifier": "all numeric Categoricals and lists of numbers", "why_tests_cant": "Depends on how each value is converted to the type of the categories.", "anchors": ["riptable/rt_categorical.py:Categorical.isin"]}
{"id": "C71", "title": "Repeated rows are found and dropped exactly", "statement": "For a Dataset with any columns and rows: duplicated(subset, keep='first') marks a row exactly when an earlier row agrees with it in all the chosen columns, keep='last' exactly when a later row does, keep=False exactly when any other row does. drop_duplicates keeps exactly the unmarked rows (for 'last' the contents of the last rows, in order of the first appearance of their keys), each with all its columns, and with inplace=True makes the Dataset equal to what the other form returns. Neither changes anything else.", "quantifier": "every Dataset, every choice of columns and of keep, every grouping of rows meeting the contract of groupby", "why_tests_cant": "Whether a row is repeated depends on all other rows; tests try a few small tables, and the arithmetic on group starts can be right for one arrangement of rows and wrong for another.", "anchors": ["riptable/rt_dataset.py: duplicated, drop_duplicates", "riptable/rt_grouping.py: get_groupings, copy_from"]}
{"id": "C72", "title": "Indexing a Dataset reads exactly the rows and columns asked for", "statement": "For every Dataset, ds[rows, columns] returns the columns asked for (by name, number, slice, list or mask; each once, in the order asked for) holding, item by item, what the Dataset holds in the rows asked for: a number counts from the end when negative, a slice means what Python's slice means, a mask means the rows where it is True in order, labels mean the rows whose label columns equal one of them, an integer array gives invalid values for rows that do not exist. head(k), tail(k) and filter are the first k rows, the last k rows and the selected rows, and filter(inplace=True) makes the Dataset what filter returns.", "quantifier": "every Dataset, every combination of row and column argument", "why_tests_cant": "There are seven kinds of row argument times six kinds of column argument times all tables and negative, reversed and out of range bounds; tests sample a few.", "anchors": ["riptable/rt_dataset.py: Dataset.__getitem__, head, tail, filter", "riptable/rt_struct.py: _extract_indexing, _mask_get_item, _index_from_row_labels"]}
{"id": "C73", "title": "Assigning to a Dataset changes exactly the cells asked for", "statement": "For every Dataset and every assignment ds[rows, columns] = value: cells outside the rows and columns asked for are unchanged, also when an exception is raised; the number of rows stays the same in all columns; a scalar is afterwards in all cells asked for; an array, list or Dataset of the right shape is there item by item (the last one for a place named twice); assigning back what was read changes nothing; an assignment that raises changes nothing; putmask replaces exactly the rows where the mask is True.", "quantifier": "every Dataset, every row and column argument, every value", "why_tests_cant": "A stray write outside the selection shows only if a test looks at the right cell; which branch runs depends on the number of rows, columns and the kind of value together.", "anchors": ["riptable/rt_dataset.py: Dataset.__setitem__, putmask"]}
{"id": "C74", "title": "Melting a Dataset loses nothing and mixes nothing", "statement": "For every Dataset, melt(id_vars, value_vars) gives one row for every row and every value column: the id columns repeated, the name of the value column and its value; nothing else, in the order value column by value column. Trim removes exactly the rows whose value is bad. Arguments naming columns that do not exist, or no value column, raise.", "quantifier": "every Dataset, every choice of id and value columns and of names", "why_tests_cant": "Whether rows and values stay together depends on the number of rows and columns at once; a name given by the user can clash with any column.", "anchors": ["riptable/rt_dataset.py: Dataset.melt"]}
{"id": "C75", "title": "Pivoting a Dataset puts every value in its cell", "statement": "For every Dataset in which no two rows agree in all key columns, pivot(labels, columns, values, filter) has one row for every different content of the label columns and one column for every different content of the key columns; each cell is the value of the row with both keys, or invalid when there is none; rows excluded by the filter play no part. Two rows with the same keys raise ValueError. Pivoting a melted Dataset gives the Dataset back up to the order of rows and columns.", "quantifier": "every Dataset, every choice of key and value columns, every filter, every grouping meeting the contract of Dataset.cat", "why_tests_cant": "The cell number is computed from two groupings and their sizes; an error shows only for some arrangements of keys, and absence of duplicates must be found for all of them.", "anchors": ["riptable/rt_dataset.py: Dataset.pivot", "riptable/rt_accum2.py: Accum2.make_dataset, _make_dataset"]}
{"id": "C76", "title": "Datasets put side by side keep every column", "statement": "Dataset.concat_columns of Datasets with the same number of rows has every column name once, in order of first appearance, with the column of the first or the last Dataset that has it, as asked; on_duplicate='raise' raises KeyError exactly when a name is repeated, on_mismatch='raise' RuntimeError, on_mismatch='warn' warns exactly then. Different numbers of rows raise ValueError.", "quantifier": "every list of Datasets, every combination of options", "why_tests_cant": "Which column wins is decided while looping over all columns; tests try two small Datasets.", "anchors": ["riptable/rt_dataset.py: Dataset.concat_columns"]}
{"id": "C77", "title": "Datasets made of rows hold exactly these rows", "statement": "Dataset.from_rows(rows, names) has the given columns, and row i holds the items of the i-th row; a row of another length raises ValueError. Dataset.from_tagged_rows of dictionaries with the same keys has the keys as columns, sorted, and row i holds the items of the i-th dictionary; dictionaries with different keys raise.", "quantifier": "every list of rows, every list of names, every list of dictionaries", "why_tests_cant": "Rows are checked one by one and keys only by counting; a test sees the few combinations it tries.", "anchors": ["riptable/rt_dataset.py: Dataset.from_rows, Dataset.from_tagged_rows"]}
{"id": "C78", "title": "Datasets made of jagged rows hold every item in its place", "statement": "Dataset.from_jagged_rows puts item i of row j in row j of column i, and the fill value where a row is shorter. Dataset.from_jagged_dict(stacked=True) has, for every input row in order, all ways to take one item of each list, the first column changing fastest. Columns of different lengths raise ValueError.", "quantifier": "every list of rows, every dictionary of lists of lists, every fill value", "why_tests_cant": "Repetition counts are products of all list lengths in the row, and a shortcut compares total lengths; an error shows only for particular lengths.", "anchors": ["riptable/rt_dataset.py: Dataset.from_jagged_rows, Dataset.from_jagged_dict"]}
{"id": "C79", "title": "Trimming removes exactly what is bad throughout", "statement": "Dataset.trim(func) removes exactly the tested columns where func is True everywhere and exactly the rows where it is True in all tested columns; Dataset.keep(func) the columns and rows where it is False everywhere. Label columns and columns that cannot be tested stay, remaining items keep their place relative to each other, and the Dataset itself is not changed.", "quantifier": "every Dataset, every test function, every combination of options", "why_tests_cant": "Column and row removal interact: rows are judged by the columns that remain; only some combinations of bad cells tell the difference.", "anchors": ["riptable/rt_dataset.py: Dataset.trim, Dataset.keep"]}
{"id": "C80", "title": "Footers answer what was set", "statement": "After any history of footer_set_values, footer_remove, adding, replacing and deleting columns, footer_get_values and footer_get_dict return, for every label and column, the value last set and not removed, and the fill value (or nothing) otherwise. A call that names an unknown column raises and changes nothing. A deep copy has the same footers and is independent of the original from then on; so should any other copy or slice be. sort_copy keeps the footers.", "quantifier": "all histories of calls, labels, columns, values, and interleavings of calls on a Dataset and its copy", "why_tests_cant": "the effect of a call depends on all calls before it and on which attribute objects are shared; a test tries a few histories", "anchors": ["riptable/rt_dataset.py: Dataset.footer_set_values, footer_remove, footer_get_values, footer_get_dict, _footers_exist, _copy_attributes, _as_itemcontainer, sort_copy", "riptable/rt_itemcontainer.py: item_get_attribute, item_set_attribute, ItemAttribute.copy", "riptable/rt_struct.py: _ensure_atomic, footers"]}
{"id": "C81", "title": "Dataset equality", "statement": "ds.equals(other) is True exactly when both Datasets have the same column names and, column by column, the same number of rows with elements that are equal or both NaN; it is reflexive and symmetric; with exact=True the columns must also be in the same order. ds == other has every column of either, comparing element by element, and False for a column only one has.", "quantifier": "all pairs of Datasets, element comparisons and NaN tests", "why_tests_cant": "which columns and rows are matched depends on both Datasets at once (missing columns, labels, summaries, shapes that broadcast); tests try a few pairs", "anchors": ["riptable/rt_dataset.py: Dataset.equals, _dataset_compare_check, __eq__, apply_cols, _operate_iter_input_cols, __and__", "riptable/rt_numpy.py: vstack"]}
{"id": "C82", "title": "Sums and differences of dates, times and spans", "statement": "Adding or subtracting Date, DateSpan, DateTimeNano and TimeSpan columns (and numbers) gives, entry by entry, the column of what the operands stand for: the sum or difference of the times, in the expected kind; an entry is invalid exactly when one of the two operands is. Two points in time cannot be added, and no point in time can be subtracted from a span. (d1 - d2) + d2 is d1. The in-place operators do the same, and an operation that raises changes nothing.", "quantifier": "all pairs of columns of the four kinds and all lengths that broadcast, all entries valid or invalid, all integers", "why_tests_cant": "which mask and which marker is used depends on the two kinds, on the lengths, and on where the invalid entries are; tests try a few pairs without invalid entries", "anchors": ["riptable/rt_datetime.py: _apply_inv_mask, DateBase._funnel_mathops, DateBase._build_mathops_result, Date.__add__, Date.__sub__, Date._check_mathops, Date._check_mathops_nano, DateSpan._check_mathops, DateSpan._check_mathops_nano, DateTimeNano.__add__, DateTimeNano.__sub__, TimeSpanBase.__add__, TimeSpanBase.__sub__, TimeSpanBase._fix_binary_ops"]}
{"id": "C83", "title": "Comparing dates, times and spans", "statement": "The six comparisons of two Date, DateTimeNano, DateSpan or TimeSpan columns, and of a Date with a DateTimeNano, compare what the entries stand for; with an invalid entry on either side the answer is False, for != True. a < b and b > a agree.", "quantifier": "all pairs of columns, all entries valid or invalid, all six comparisons", "why_tests_cant": "the answers for an invalid entry depend on which side it is on and on the marker; tests compare valid entries or mask one side", "anchors": ["riptable/rt_datetime.py: DateTimeBase._preserve_invalid_comparison, Date._date_compare_check, DateSpan._datespan_compare_check, DateTimeNano._datetimenano_compare_check, TimeSpanBase._timespan_compare_check"]}
{"id": "C84", "title": "Ranges of dates, first days of weeks and months", "statement": "Date.range(start, end) holds each day from start to end once, in order, with the ends included as closed says; with a step, the days a multiple of the step after start and before end; with days=n exactly n dates, step days apart. start_of_week is the last Monday up to the date, start_of_month the first day of its month, and both are invalid exactly for invalid dates.", "quantifier": "all start and end days, steps forward and backward, numbers of days, values of closed, all dates until 2099", "why_tests_cant": "the ends are shifted under conditions on three arguments at once; the calendar fields are table lookups over 130 years", "anchors": ["riptable/rt_datetime.py: Date.range, Date.start_of_week, Date.start_of_month, Date.day_of_month, Date.day_of_week"]}
{"id": "C85", "title": "A function or operator applied to all columns", "statement": "apply_cols, the unary operators and the operators with a number or an array compute every column one can compute with that is not a label; every other column, the names and order of the columns, the labels, and the summary columns stay. fill_value says what becomes of the columns one cannot compute with, by column name if it is a dictionary.", "quantifier": "all Datasets with any columns, labels and summaries, all functions that keep the length, all fill values", "why_tests_cant": "the result depends on which columns are computable, labels or summaries and on all names at once; tests use one small table without them", "anchors": ["riptable/rt_dataset.py: Dataset.apply_cols, Dataset.__add__, Dataset.__neg__, Dataset.fillna, Dataset._add_labels_footers_summaries"]}
{"id": "C86", "title": "Arithmetic of two Datasets", "statement": "ds1 op ds2 (or a Struct) computes each column of ds1 with the column of the same name, wherever that is in ds2; columns ds2 does not have, labels, and columns one cannot compute with stay as they are in ds1, and no column is lost. The k-th summary goes with the k-th summary. It raises exactly when a column they share has another length.", "quantifier": "all pairs of Datasets and Structs, all column orders, names, labels, summaries and lengths", "why_tests_cant": "matching is by name for some columns and by position for others, and depends on a comparison of the two layouts; tests use two equal layouts", "anchors": ["riptable/rt_dataset.py: Dataset.apply_cols, Dataset._operate_iter_input_cols, Dataset._labels_footers_summaries_conform"]}
{"id": "C87", "title": "Arithmetic in place", "statement": "ds += x changes each column one can compute with and that is not a label exactly once, in its own array, and nothing else in memory; what ds += x makes of a column is what ds + x makes of it.", "quantifier": "all Datasets, all ways columns can share arrays, all operators, failures at any column", "why_tests_cant": "depends on which columns share memory and where the first failure is; tests use columns with arrays of their own that all work", "anchors": ["riptable/rt_dataset.py: Dataset.apply_cols, Dataset.__iadd__, Dataset.__isub__, Dataset.__imul__"]}
{"id": "C88", "title": "Footers after arithmetic", "statement": "A function or operator on a Dataset with footers computes the footer values too, and each stays under its own column, with its row name; no footer value is left as it was next to a column that has changed.", "quantifier": "all Datasets, any number of footer rows with or without missing values, all orders of labels, summaries and columns", "why_tests_cant": "footer values are a row that is cut, computed and put back by position; tests have full rows in the usual order", "anchors": ["riptable/rt_dataset.py: Dataset.apply_cols, Dataset._construct_new_footers, Dataset._add_labels_footers_summaries, Dataset._operate_iter_input_cols"]}
{"id": "C89", "title": "Reductions by column and of the whole Dataset", "statement": "ds.sum() (likewise mean, std, count, nansum, ...) has under the name of each column, in order, the function of that column; columns one cannot compute with are left out or are what fill_value says, by column name if it is a dictionary. With axis=None the result is the function of all entries of the columns one can compute with.", "quantifier": "all Datasets, all mixtures of columns, all functions and fill values", "why_tests_cant": "which columns take part depends on their types, on labels and on fill values together; tests reduce a table of numbers", "anchors": ["riptable/rt_dataset.py: Dataset.reduce, Dataset.sum, Dataset.mean, Dataset.count, Dataset.nansum"]}
{"id": "C90", "title": "Reductions by row and totals", "statement": "ds.sum(axis=1) has for every row the function of its entries in the columns one can compute with that are not labels, with or without a fill value for the others, and leaves the Dataset as it was. A column of totals added with imatrix_y is computed from the columns as they are when it is asked for.", "quantifier": "all Datasets, all dtypes of columns, all histories of assignments and totals", "why_tests_cant": "the matrix is kept between calls and columns become parts of it; tests ask once, on columns of one dtype", "anchors": ["riptable/rt_dataset.py: Dataset.reduce, Dataset.imatrix_make, Dataset.imatrix_y, Dataset.imatrix_totals", "riptable/rt_imatrix.py: IMatrix.rebuild"]}
{"id": "C91", "title": "any, all and masks", "statement": "any and all by column, by row and as a whole say whether some (every) entry of that column, row or table is true; the whole is the any (all) of the rows and of the columns. mask_or_isnan, mask_and_isfinite and the like are True for exactly the rows in which the test holds in some (every) column one can compute with that is not a label.", "quantifier": "all Datasets with columns of numbers, texts or other types, all tests", "why_tests_cant": "agreement of three different loops for all mixtures of types; tests compare single small tables", "anchors": ["riptable/rt_dataset.py: Dataset.any, Dataset.all, Dataset._mask_reduce, Dataset.mask_or_isnan, Dataset.mask_and_isfinite"]}
{"id": "C92", "title": "Transposing", "statement": "transpose gives one column per row, which holds the entries of that row in the order of the columns, and a label column with the names of the columns; no row and no column is lost. Transposing twice gives the table back.", "quantifier": "all Datasets, all labels, names and header names", "why_tests_cant": "new names are made from label values and may meet; tests use different labels", "anchors": ["riptable/rt_dataset.py: Dataset.transpose, Dataset.imatrix_make"]}
{"id": "C93", "title": "Moved arrays, differences and changes", "statement": "a.shift(p) has at place i the entry that was at place i - p, and the invalid value where there is none; moving twice in the same direction is moving by the sum, moving back restores everything that was not pushed out. a.diff(p) has at place i the entry minus the one p places before; the first entry and the differences give the array back. a.transitions(p) is True exactly where the entry p places before exists and is different, a.differs(p), as documented, where it exists and is equal, for numbers and for strings.", "quantifier": "all arrays, all numbers of places, positive, negative, zero or larger than the array", "why_tests_cant": "boundaries of slices for every sign and size of the period, in memory that is not initialised; tests use small periods", "anchors": ["riptable/rt_fastarray.py: FastArray.shift, FastArray.diff, FastArray.transitions, FastArray.differs, FastArray._internal_self_compare, FastArray.replacena"]}
{"id": "C94", "title": "Number of different entries and repeated entries of an array", "statement": "a.nunique() is the number of different entries that are valid, whatever their order and number. a.duplicated(keep) marks exactly the entries that have an equal entry before them (keep='first'), after them ('last') or anywhere else (False); the entries not marked are one for every different value.", "quantifier": "all arrays, all dtypes, all ways to group", "why_tests_cant": "the sentinel is looked for at one end of the sorted values, which depends on the dtype; tests use a few dtypes", "anchors": ["riptable/rt_fastarray.py: FastArray.nunique, FastArray.duplicated"]}
{"id": "C95", "title": "Comparing a Categorical with a list of labels", "statement": "c == [labels] is True for exactly the rows whose label is one of the list; filtered rows and labels that are not categories never match.", "quantifier": "all Categoricals, all lists of labels with at least one", "why_tests_cant": "the masks of the single labels are joined; every Categorical and every list has to be covered, with filtered rows, missing labels, both base indices", "anchors": ["riptable/rt_categorical.py: Categorical._categorical_compare_check, Categorical.__eq__"]}
{"id": "C96", "title": "Other comparisons of a Categorical with several values", "statement": "c != [labels] is the opposite of c == [labels]; comparing with an array of as many numbers as rows compares row by row, and a filtered row is neither equal to nor smaller than a valid number.", "quantifier": "all Categoricals, all lists and arrays, all comparisons", "why_tests_cant": "tests compare with one label, or for equality", "anchors": ["riptable/rt_categorical.py: Categorical._categorical_compare_check, Categorical.__ne__, CompareCheckHelper"]}
{"id": "C97", "title": "Assigning a Categorical to rows of another", "statement": "c[rows] = d gives the rows, in order, the labels of d and leaves all other rows alone.", "quantifier": "all pairs of Categoricals, all choices of rows", "why_tests_cant": "depends on the categories of both, their order and base index", "anchors": ["riptable/rt_categorical.py: Categorical.__setitem__, Categorical.categories_equal"]}
{"id": "C98", "title": "Mapping the categories to values", "statement": "c.map(mapper, invalid) has for every row the value of its label (dictionary) or of its category (array), and invalid for filtered rows and labels without value.", "quantifier": "all Categoricals, all dictionaries and arrays, all invalid values", "why_tests_cant": "three ways through the code, depending on whether a category is missing from the dictionary", "anchors": ["riptable/rt_categorical.py: Categorical.map, Categorical.expand_array"]}
{"id": "C99", "title": "One-hot encoding", "statement": "one_hot_encode() has one array per category, in the order of the categories, True exactly in the rows with this label; every labelled row is True in exactly one array, every filtered row in none.", "quantifier": "all Categoricals with one key, both base indices", "why_tests_cant": "for every number of categories and every row", "anchors": ["riptable/rt_categorical.py: Categorical.one_hot_encode"]}
{"id": "C100", "title": "Moving rows of a Categorical and joining its keys", "statement": "c.shift_cat(p) has at row i the label that was at row i - p and a filtered row where there is none. as_singlekey has for every row the keys of the row joined by the separator, and different keys stay different.", "quantifier": "all Categoricals, all numbers of rows, all separators", "why_tests_cant": "base indices, labels containing the separator", "anchors": ["riptable/rt_categorical.py: Categorical.shift_cat, Categorical.shift, Categorical.as_singlekey"]}
{"id": "C101", "title": "Filtering a Categorical and dropping unused categories", "statement": "c.set_valid(filter) has for every row that passes the label it had, all other rows are filtered. Its categories are exactly the labels that are left, in the order they were in, and the first row noted for every category is its first row.", "quantifier": "all Categoricals, base index 0 or 1, all filters or none, whatever order the groups are found in", "why_tests_cant": "three ways through the code, depending on the number of groups left, with ranks of ranks; every order in which the C++ finds the groups", "anchors": ["riptable/rt_categorical.py: Categorical.set_valid", "riptable/rt_grouping.py: Grouping.regroup"]}
{"id": "C102", "title": "Filtering a Categorical made from a mapping", "statement": "c.set_valid(filter) of a Categorical with a mapping returns a new Categorical in which rows that pass keep their label and others are labelled Filtered, with the codes in use as mapping; c itself does not change.", "quantifier": "all mappings, codes and filters", "why_tests_cant": "aliasing of the codes of the old and the new Categorical", "anchors": ["riptable/rt_categorical.py: Categorical.set_valid"]}
{"id": "C103", "title": "Removing duplicate categories", "statement": "category_make_unique() changes the label of no row; afterwards no two categories are equal and they are the labels there were before.", "quantifier": "all Categoricals with one key, also with equal labels at any places, base index 0 or 1, filtered rows", "why_tests_cant": "the codes are taken through two arrays, filtered rows by a negative index that is corrected later", "anchors": ["riptable/rt_categorical.py: Categorical.category_make_unique, Categorical._from_maybe_non_unique_labels"]}
{"id": "C104", "title": "Merging mappings", "statement": "categorical_merge_dict raises exactly if a label has two different codes or a code two different labels in the mappings; otherwise the merged mapping has every label once, with the code it has in each mapping that has it.", "quantifier": "all lists of mappings", "why_tests_cant": "all combinations of mappings that overlap", "anchors": ["riptable/rt_categorical.py: categorical_merge_dict"]}
{"id": "C105", "title": "Left and right merge with merge()", "statement": "merge(how='left') has every row of left, in order, with the values of the first row of right that has the same key in all key columns, and invalid values if there is none; merge(how='right') the other way round. Each requested column is in the result once, under its name, with its suffix if both sides have it, and nothing else is.", "quantifier": "all pairs of Datasets, any number of key columns, repeated and null keys, all choices of columns and suffixes that can be resolved", "why_tests_cant": "for all combinations of keys, repeated or missing on either side, and of column names", "anchors": ["riptable/rt_merge.py: merge, _construct_index, _construct_colname_mapping"]}
{"id": "C106", "title": "Outer merge with merge()", "statement": "merge(how='outer') has one row for every different key of either side, made of the first row of left and the first row of right that have this key; the common key columns hold the key. A key with a null part is in no row of either side.", "quantifier": "all pairs of Datasets, any number of key columns, whatever order the keys are found in", "why_tests_cant": "the order of the keys is that of a C++ hash table; keys repeated on both sides", "anchors": ["riptable/rt_merge.py: merge, _construct_index"]}
{"id": "C107", "title": "Inner merge with merge()", "statement": "merge(how='inner') has every row of left that has a partner, in order, with its own values and those of the first row of right with the same key.", "quantifier": "all pairs of Datasets, any number of key columns", "why_tests_cant": "only shows with keys repeated on the left and columns that differ between these rows", "anchors": ["riptable/rt_merge.py: merge, _construct_index"]}
{"id": "C108", "title": "What merge() refuses", "statement": "merge raises for key or requested columns that are not there, no key columns or different numbers of them, an indicator name that is also a column of the result, and columns of both sides that are no common keys if there are no suffixes.", "quantifier": "all calls of merge", "why_tests_cant": "whichever other arguments are given", "anchors": ["riptable/rt_merge.py: merge, _normalize_selected_columns, _require_columns_present, _construct_colname_mapping"]}
{"id": "C109", "title": "A container saved to a file comes back", "statement": "Saving a Struct or Dataset without nested containers to an .sds file and loading it gives a container of the same class with the same items (arrays, scalars, Categoricals and other special arrays) under the same names in the same order, the same labels and the same sort columns.", "quantifier": "all containers, any mixture and order of plain arrays, scalars and special arrays whose names have no '!', any names", "why_tests_cant": "names that are prefixes of each other, special arrays that add further arrays to the file", "anchors": ["riptable/rt_sds.py: _write_to_sds, _build_meta_data, load_sds_mem, _read_sds, container_from_filetype", "riptable/rt_struct.py: _load_from_sds_meta_data, _build_sds_meta_data", "riptable/rt_dataset.py: _build_sds_meta_data, _load_from_sds_meta_data"]}
{"id": "C110", "title": "A nested Struct saved to one file comes back", "statement": "Saving a nested Struct with onefile=True and loading it gives the same tree: at every depth the same names in the same order, the same arrays, scalars and special arrays, and the same classes and labels.", "quantifier": "all trees of containers of any depth and size whose names have no '/' or '!' and are not _root, metastring or arrayflags", "why_tests_cant": "all shapes of trees, with containers before, between and after arrays, empty containers, names that are prefixes of each other", "anchors": ["riptable/rt_sds.py: _flatten_undo, save_sds, _load_sds", "riptable/rt_struct.py: flatten, flatten_undo, _get_final_dict"]}
{"id": "C111", "title": "Nested Structs in one file: any names, and sorting", "statement": "The round trip through one file holds for all names of items, and Datasets come back sorted by the same columns.", "quantifier": "all trees of containers, all names", "why_tests_cant": "names that clash with the separators and reserved names of the format", "anchors": ["riptable/rt_sds.py: save_sds, _flatten_undo", "riptable/rt_struct.py: flatten, flatten_undo"]}
{"id": "C112", "title": "A nested Struct saved to a directory comes back", "statement": "Saving a nested Struct and loading it gives a Struct in which exactly the same containers are found along the same names, with the same names and the same arrays, scalars and special arrays in them. The order of the items, class, labels and sort columns are the same in every container that is the outermost, is empty or has an item that is not a container. This holds in whatever order the files are listed, whether or not there is also a file with the same name, and if other files are in the directory that are not named after a container of the Struct.", "quantifier": "all trees of containers of any depth and size with names allowed in files, all listing orders, all harmless contents of the directory and path", "why_tests_cant": "the listing order depends on the file system; all shapes of trees", "anchors": ["riptable/rt_sds.py: save_struct, _sds_from_tree, _write_to_sds, _load_sds, _build_schema, _struct_from_schema"]}
{"id": "C113", "title": "Order of the items of nested Structs", "statement": "A nested Struct saved to a directory comes back with its items in the same order at every depth.", "quantifier": "all trees of containers, all listing orders", "why_tests_cant": "the listing order depends on the file system", "anchors": ["riptable/rt_sds.py: _struct_from_schema, _build_schema"]}
{"id": "C114", "title": "Saving again to the same path", "statement": "Whatever was saved to a path before, loading the path gives what was saved last.", "quantifier": "all pairs of containers saved one after the other to one path", "why_tests_cant": "combinations of an old and a new tree, with containers removed or replaced by arrays", "anchors": ["riptable/rt_sds.py: save_struct, save_sds, _sds_from_tree, _load_sds, _struct_from_schema"]}
{"id": "C115", "title": "Names of nested containers", "statement": "Saving a nested Struct raises if the name of a container at any depth has one of the characters \\ : < > | * ? ! which cannot be used; otherwise all containers come back.", "quantifier": "all trees of containers, all names at all depths", "why_tests_cant": "names at any depth, with or without arrays of their own", "anchors": ["riptable/rt_sds.py: _escape_filename, _write_to_sds, _sds_from_tree, _build_schema"]}
{"id": "C116", "title": "Partitions of a PDataset", "statement": "A PDataset made of a list of Datasets, or of stacked files, has exactly these as its partitions: their number, their sizes, each of them by position, by iteration, by slice and by a name that is no column, and every row is labelled with the partition it came from, in the display and in the Categorical of the partitions.", "quantifier": "all lists of Datasets, with empty ones anywhere, any names that are different", "why_tests_cant": "empty partitions at any place, all numbers of partitions and rows", "anchors": ["riptable/rt_pdataset.py: PDataset.__init__, _init_from_list, _post_init, pslice, partition, pdict, piter, pcat, prow_labeler, __getitem__, prows"]}
{"id": "C117", "title": "Finding partitions", "statement": "pds[name] and pds[number] give the partition with this name, and partition(-k) the k-th from the end, for every partition.", "quantifier": "all PDatasets, names and numbers", "why_tests_cant": "names of columns and partitions that meet, numbers that are also positions", "anchors": ["riptable/rt_pdataset.py: PDataset.__getitem__, partition, pslice"]}
{"id": "C118", "title": "Names of partitions from file names", "statement": "Partitions of stacked files get different names, one for each file. If the file names differ in a number of fixed width, such as a date, the partitions are named by it, also if there is only one file.", "quantifier": "all lists of file names", "why_tests_cant": "all file names and places where they differ", "anchors": ["riptable/rt_pdataset.py: PDataset._filenames_to_pnames, _auto_pnames, _init_pnames_filenames"]}
{"id": "C119", "title": "Partitions stay the ones they were", "statement": "Whatever is done with a PDataset (new names, copies, sorting, filtering), a partition holds the rows it was made with that are still there, under its present name everywhere.", "quantifier": "all PDatasets and operations on them", "why_tests_cant": "only seen by following rows through operations that do not know about partitions", "anchors": ["riptable/rt_pdataset.py: PDataset.set_pnames, pcat, _copy", "riptable/rt_dataset.py: Dataset.filter, sort_inplace, sort_copy"]}
{"id": "C120", "title": "Totals of several calculations in one table", "statement": "Cross tables with the same row and column labels that are put into an AccumTable under different names: each of them can be shown with its cells unchanged, under its name, with the totals of the chosen others as further columns and footers, every total beside the row and below the column it belongs to; rows and columns that are removed are removed from all of them.", "quantifier": "all numbers of tables, labels, values, choices of margins and footers, filters of rows and columns", "why_tests_cant": "all combinations of tables, margins and filters", "anchors": ["riptable/rt_accumtable.py: AccumTable.__setitem__, gen, set_margin_columns, set_footer_rows, _rename_summary_row_and_col"]}
{"id": "C121", "title": "Putting a table into an AccumTable", "statement": "at[name] = ds leaves the Dataset as it is, also if it is put in under several names, and no column is lost when the table is shown.", "quantifier": "all Datasets and names", "why_tests_cant": "shared objects, and labels that are equal to names of tables", "anchors": ["riptable/rt_accumtable.py: AccumTable.__setitem__, _rename_summary_row_and_col, gen"]}
{"id": "C122", "title": "accum_ratio", "statement": "Every cell of accum_ratio is the ratio of the two aggregates of the rows of data with the labels of the cell, and every total is the ratio of the two totals, not the total of the ratios; the totals of numerator and denominator are shown if wanted. It raises only if a category has the name of one of the added columns and cannot be renamed.", "quantifier": "all data, labels, operations, filters", "why_tests_cant": "all labels and data", "anchors": ["riptable/rt_accumtable.py: accum_ratio", "riptable/rt_dataset.py: Dataset._operate_iter_input_cols, _labels_footers_summaries_conform"]}
{"id": "C123", "title": "accum_ratio: names of categories", "statement": "accum_ratio works for all names of categories and leaves its arguments as they are.", "quantifier": "all Categoricals", "why_tests_cant": "depends on names in the data, and on the width of the array of categories", "anchors": ["riptable/rt_accumtable.py: accum_ratio", "riptable/rt_categorical.py: Categorical.category_replace"]}
{"id": "C124", "title": "accum_ratiop", "statement": "accum_ratiop shows the share of each cell in the total, in its row or in its column, with the matching totals, and with include_total also the totals themselves. For sums the shares add up to 100 over the table, in each row, or in each column, wherever the total is not 0.", "quantifier": "all data, labels, ways to normalize (exact arithmetic)", "why_tests_cant": "all data and labels", "anchors": ["riptable/rt_accumtable.py: accum_ratiop"]}
{"id": "C125", "title": "accum_ratiop and accum_cols: names and blanks", "statement": "accum_ratiop works for all names of categories and with remove_blanks; accum_cols refuses lists of different lengths.", "quantifier": "all categories, totals and lists", "why_tests_cant": "depends on names in the data and on totals that are 0", "anchors": ["riptable/rt_accumtable.py: accum_ratiop, accum_cols"]}
{"id": "C126", "title": "accum_cols", "statement": "accum_cols shows one column for each entry under its name: aggregates, shares of the total, or ratios of two aggregates, each with the value for all rows in the footer.", "quantifier": "all lists of entries with different names, all data", "why_tests_cant": "all lists of entries of the three kinds in any order", "anchors": ["riptable/rt_accumtable.py: accum_cols"]}
{"id": "C127", "title": "merge_asof: the row that is matched", "statement": "merge_asof puts beside each row of the left Dataset the values of the right row with the same by-keys that has the latest key at or before (backward), the earliest key at or after (forward) or the nearest key (nearest; the earlier key in case of a tie); of equal keys the last row (backward) or first row (forward). This does not depend on the order of the rows: with action_on_unsorted='sort' columns in any order give the match, and the rows of the result are those of the left Dataset in their order.", "quantifier": "all Datasets, by-columns, orders of the rows, directions, with and without exact matches", "why_tests_cant": "all orders of both columns with ties", "anchors": ["riptable/rt_merge.py: merge_asof, _create_merge_fancy_indices", "riptable/rt_utils.py: alignmk"]}
{"id": "C128", "title": "merge_asof: columns and refusals", "statement": "What merge_asof returns has all requested columns under their names (and the matched key, if asked for) and nothing else. It raises for unknown columns, different numbers of by-columns, a taken name for the matched key, clashing names without suffixes, and with action_on_unsorted='raise' exactly for columns that are not sorted.", "quantifier": "all Datasets and arguments", "why_tests_cant": "all names and orders", "anchors": ["riptable/rt_merge.py: merge_asof, _construct_colname_mapping"]}
{"id": "C129", "title": "merge_asof: tolerance and unsigned keys", "statement": "merge_asof respects a tolerance, and direction nearest finds the nearest key for keys of every number type.", "quantifier": "all tolerances and keys", "why_tests_cant": "depends on tolerance and on types of numbers", "anchors": ["riptable/rt_merge.py: merge_asof"]}
{"id": "C130", "title": "cut_time: the bucket of a time", "statement": "cut_time divides the day at the given edges, which for buckets of one length are the start, the start plus multiples of the length, and the end. Each time of the array is put into the bucket whose lower edge is before it and whose upper edge is at or after it; invalid times and times outside get no bucket. The buckets are called after their left (or right) edge, the added ones at the ends 'pre' and 'post'.", "quantifier": "all arrays of times, start and end times, lengths of buckets, lists of edges in any order, labels", "why_tests_cant": "every time and every set of edges; where edges coincide with times", "anchors": ["riptable/rt_datetime.py: DateTimeNano.cut_time"]}
{"id": "C131", "title": "cut_time: no time from start to end is lost", "statement": "Every valid time from the start to the end, with added buckets every time of the day, is in a bucket; cut_time ends for every length of buckets and every list of edges.", "quantifier": "all times and arguments of cut_time", "why_tests_cant": "times exactly at an edge, lengths of 0 and unusual tuples are corner cases of infinitely many", "anchors": ["riptable/rt_datetime.py: DateTimeNano.cut_time"]}
{"id": "C132", "title": "cut_time: names of buckets", "statement": "Different buckets of cut_time have different names, with any format the bucket before the start is called 'pre' and the one after the end 'post'.", "quantifier": "all edges and formats", "why_tests_cant": "all edges", "anchors": ["riptable/rt_datetime.py: DateTimeNano.cut_time, TimeSpan.clock_format_short, TimeSpan.strftime"]}
{"id": "C133", "title": "resample with dropna rounds times down", "statement": "A rule consisting of a number and a unit code in small or capital letters stands for that many units, a code alone for one. With dropna=True every valid time is rounded down to a multiple of it (counted from 1970 in UTC), invalid times stay invalid, the order of times is kept and resampling again changes nothing.", "quantifier": "all arrays of times and rules with whole numbers", "why_tests_cant": "all times and step lengths", "anchors": ["riptable/rt_datetime.py: DateTimeNano.resample"]}
{"id": "C134", "title": "resample gives all points of time", "statement": "With dropna=False resample returns exactly the multiples of the rule from the one at or before the earliest time to the one at or before the latest time, in order, at equal distances; every time of the array rounded down is among them.", "quantifier": "all nonempty arrays of times and rules", "why_tests_cant": "all times and step lengths", "anchors": ["riptable/rt_datetime.py: DateTimeNano.resample"]}
{"id": "C135", "title": "resample: displayed times, invalid times, small steps", "statement": "Resampled times are round in the time zone in which they are displayed; invalid times do not change the range; every rule with a positive number works.", "quantifier": "all time zones, arrays with invalid times, rules", "why_tests_cant": "depends on the offset of the time zone and on the position of invalid times", "anchors": ["riptable/rt_datetime.py: DateTimeNano.resample, DateTimeNano.min"]}
{"id": "C136", "title": "diff of times", "statement": "diff(n) of a DateTimeNano is a TimeSpan of the differences between each time and the one n places before; where there is none, or one of the two is invalid, it is invalid.", "quantifier": "all arrays of times, all n other than 0", "why_tests_cant": "all lengths, positions and signs of n", "anchors": ["riptable/rt_datetime.py: DateTimeNano.diff"]}
{"id": "C137", "title": "Columns of a group-by result", "statement": "The result of an operation on groups (sum, max, first, ...) has the key columns as the grouping has them and, for every data column of a kind the operation accepts, one column of the same name calculated from it, with the rows in the order in which the groups are shown; nothing else, no name twice, in the order of the data. With return_all the other data columns are there too with invalid values. Operations with one value per row give the calculated columns without keys.", "quantifier": "all Datasets, keys, operations, orders of the groups and results of the calculation of a column", "why_tests_cant": "every combination of kinds of columns, names and operations", "anchors": ["riptable/rt_grouping.py: Grouping._calculate_all, Grouping._get_calculate_dict, Grouping._return_dataset, Grouping._finalize_dataset", "riptable/rt_groupby.py: GroupBy._calculate_all"]}
{"id": "C138", "title": "Group-by on chosen columns with col_idx", "statement": "With col_idx, a name or a list of names, exactly the named columns are calculated.", "quantifier": "all names of columns and all choices", "why_tests_cant": "depends on relations between names of columns", "anchors": ["riptable/rt_grouping.py: Grouping._get_calculate_dict"]}
{"id": "C139", "title": "Names of arrays given to a group-by operation", "statement": "Arrays given to an operation in a list are known by their names, arrays without one by 'col_' and their position. The first array of a name keeps it; each further one gets the name followed by a number such that no array given has this name.", "quantifier": "all lists of arrays with and without names", "why_tests_cant": "all lists of names", "anchors": ["riptable/rt_groupbyops.py: GroupByOps.get_header_names"]}
{"id": "C140", "title": "Every array given to a group-by operation is calculated", "statement": "Every array given to an operation of a Categorical or GroupBy gets a result column of its own, calculated from that array; for a GroupBy the columns of the Dataset are calculated too.", "quantifier": "all lists and tuples of arrays, names, keys", "why_tests_cant": "collisions of generated names and of names with keys are corner cases of infinitely many", "anchors": ["riptable/rt_groupbyops.py: GroupByOps._prepare_gb_data, GroupByOps.get_header_names", "riptable/rt_categorical.py: Categorical._calculate_all", "riptable/rt_groupby.py: GroupBy._calculate_all"]}
{"id": "C141", "title": "gb[columns].operation()", "statement": "Selecting columns of a GroupBy and applying an operation gives the keys and exactly those selected columns that the operation on the whole Dataset gives, with the same values, in the order selected. A Dataset or dictionary given to an operation of a Categorical is calculated column by column.", "quantifier": "all Datasets, keys, selections and operations", "why_tests_cant": "all selections", "anchors": ["riptable/rt_groupby.py: GroupBy._getitem, GroupBy._calculate_all", "riptable/rt_categorical.py: Categorical._calculate_all"]}
{"id": "C142", "title": "agg gives what is asked for", "statement": "agg with a list of operations returns one table per operation, the result of that operation; with a dictionary of columns and operations the table of every operation has exactly the columns it is asked for, as the operation gives them. Unknown columns or operations are refused; all listed operations can be used.", "quantifier": "all Datasets, keys, lists and dictionaries of operations", "why_tests_cant": "all combinations of columns and operations", "anchors": ["riptable/rt_groupbyops.py: GroupByOps.agg, GroupByOps._get_agg_func, GroupByOps.AggNames"]}
{"id": "C143", "title": "Quantile parameters survive encoding", "statement": "The quantile (to 1e-9) and the choice whether NaNs are left out, which are passed to the calculation as one number, are read back from it unchanged and the number fits into 32 bits; window and quantile of rolling quantiles can be read back from their number.", "quantifier": "all quantiles from 0 to 1, all windows", "why_tests_cant": "all numbers", "anchors": ["riptable/rt_groupbyops.py: GroupByOps._quantile_funcParam_from_q, GroupByOps._quantile_q_from_funcParam", "riptable/rt_utils.py: rolling_quantile_funcParam"]}
{"id": "C144", "title": "Several quantiles at once", "statement": "Asking for several different quantiles gives for every column the results of all quantiles side by side, each under its own name (the name of the column, _q or _p, and the quantile), followed by the keys; every value is that of the single quantile.", "quantifier": "all columns, keys and lists of different quantiles for which no key has the name of a result", "why_tests_cant": "all names and lists of quantiles; names that look like results of other columns", "anchors": ["riptable/rt_groupbyops.py: GroupByOps._quantile"]}
{"id": "C145", "title": "count with transform", "statement": "count(transform=True) gives every row the number of rows (kept by the filter) of its group, and rows that are in no group no count of another group.", "quantifier": "all Categoricals, also with filtered rows, and filters", "why_tests_cant": "all assignments of rows to groups", "anchors": ["riptable/rt_grouping.py: Grouping.count", "riptable/rt_categorical.py: Categorical.count"]}
{"id": "C146", "title": "All Datasets of a Multiset have the same number of rows", "statement": "After any history of making a Multiset, assigning Datasets or Multisets to it (by attribute, by name or by a list of names) and deleting them, all its items have the same number of rows, which is the number it reports; what has another number of rows is refused.", "quantifier": "all histories of operations and all numbers of rows", "why_tests_cant": "histories are infinitely many", "anchors": ["riptable/rt_multiset.py: Multiset._init_from_dict, Multiset._check_addtype, Multiset.__setitem__", "riptable/rt_struct.py: Struct.__setattr__, Struct.__delitem__"]}
{"id": "C147", "title": "Assigning items of a Multiset", "statement": "ms[name] = value sets exactly this item, a new one at the end. ms[[names]] = [values] sets all these items or, if something does not fit, raises and changes nothing.", "quantifier": "all Multisets, names and values", "why_tests_cant": "all combinations of names, values and numbers of rows", "anchors": ["riptable/rt_multiset.py: Multiset.__setitem__"]}
{"id": "C148", "title": "Selecting columns and rows of a Multiset", "statement": "ms[rows, [columns]] has the same structure, and every Dataset in it, at every depth, has exactly these columns in this order with these rows and the labels among them; if a Dataset lacks one an exception is raised. ms[rows, name] for the name of an item is this item with these rows.", "quantifier": "all nested Multisets, columns and selections of rows", "why_tests_cant": "nesting is unbounded", "anchors": ["riptable/rt_multiset.py: Multiset.__getitem__, Multiset._copy", "riptable/rt_dataset.py: Dataset._copy"]}
{"id": "C149", "title": "One column of all Datasets of a Multiset", "statement": "ms[rows, name] for a name that is no item has this column, with these rows, of all Datasets at every depth that have it, and raises if none has. Positions select items; multiget takes the wanted columns of every Dataset that has any of them.", "quantifier": "all nested Multisets, names, rows and positions", "why_tests_cant": "nesting is unbounded", "anchors": ["riptable/rt_multiset.py: Multiset.__getitem__, Multiset.multiget", "riptable/rt_struct.py: Struct._extract_indexing, Struct._mask_get_item"]}
{"id": "C150", "title": "Headers of a displayed Multiset", "statement": "In the display every column of every Dataset that is not a key is shown exactly once, below its name and the name of its Dataset, columns of the same name side by side in the order of the Datasets; names in order of first appearance.", "quantifier": "all Multisets and keys", "why_tests_cant": "all arrangements of names", "anchors": ["riptable/rt_multiset.py: Multiset._build_col_headers, Multiset._depth_first"]}
{"id": "C151", "title": "Contents of a Multiset flattened side by side", "statement": "If flatten() returns, the result has the labels of the first Dataset, followed by every other column of every Dataset at every depth, in order, with its own values, under all the names leading to it joined by the delimiter; no name twice, none lost; and all Datasets had the same labels.", "quantifier": "all nested Multisets, names and delimiters", "why_tests_cant": "names can collide in unboundedly many ways; nesting is unbounded", "anchors": ["riptable/rt_multiset.py: Multiset.flatten", "riptable/rt_dataset.py: Dataset.concat_columns", "riptable/rt_struct.py: Struct.col_rename"]}
{"id": "C152", "title": "Applying a function to all items of a Multiset", "statement": "cascade(func) returns a Multiset with the same names in the same order and for every item the result of the function on it, exactly if the function works on all items and the results have the same number of rows.", "quantifier": "all Multisets and functions", "why_tests_cant": "all functions", "anchors": ["riptable/rt_multiset.py: Multiset.cascade, Multiset.label_fixup"]}
{"id": "C153", "title": "Contents of a Multiset flattened one below another", "statement": "If flatten(horizontal=False) returns, all Datasets at every depth had the same labels and the same other columns in the same order; the result has the labels, the column of names and the other columns, each with the values of all Datasets one after the other, and the column of names says for each row, by the joined names leading to it, which Dataset it comes from.", "quantifier": "all nested Multisets, names and delimiters", "why_tests_cant": "nesting is unbounded", "anchors": ["riptable/rt_multiset.py: Multiset.flatten", "riptable/rt_dataset.py: Dataset.concat_columns, Dataset.concat_rows"]}
{"id": "C154", "title": "Multisets can be flattened side by side", "statement": "flatten() works for every Multiset whose Datasets have the same labels, in values too, and whose joined names differ.", "quantifier": "all nested Multisets, names and delimiters", "why_tests_cant": "names can collide in unboundedly many ways", "anchors": ["riptable/rt_multiset.py: Multiset.flatten"]}
{"id": "C155", "title": "Multisets can be flattened one below another", "statement": "flatten(horizontal=False) works for every Multiset, nested or not, whose Datasets have the same labels and the same columns in the same order.", "quantifier": "all nested Multisets, names and delimiters", "why_tests_cant": "nesting is unbounded", "anchors": ["riptable/rt_multiset.py: Multiset.flatten"]}
{"id": "C156", "title": "A Categorical of values shows the values", "statement": "Categorical(values) has as many rows as there are values and every row shows its value, or is filtered if it does not pass the filter; the categories are the values of the rows that pass, each once, ascending by default and by first appearance with ordered=False. This holds for both base indices and every integer type asked for.", "quantifier": "all arrays of values, filters, base indices, integer types, with and without ordered and lex", "why_tests_cant": "all arrays and combinations of keywords", "anchors": ["riptable/rt_categorical.py: Categorical.__new__, Categorical._getsingleitem", "riptable/rt_grouping.py: Grouping.__init__, Grouping.possibly_recast"]}
{"id": "C157", "title": "A Categorical of several arrays keeps all of them", "statement": "Every row of Categorical([a1, a2, ...]) shows the values of all the arrays in that row; the categories are the combinations of the rows that pass the filter, each once. It is refused exactly if lengths differ or a filter is given with base index 0.", "quantifier": "all lists of arrays with any names, filters and keywords", "why_tests_cant": "arrays may have any names, in any combination", "anchors": ["riptable/rt_categorical.py: Categorical.__new__", "riptable/rt_grouping.py: Grouping.__init__"]}
{"id": "C158", "title": "Values with given categories", "statement": "Categorical(values, categories) shows in every row its value and keeps the categories in the order given. Values that are no category are refused or, if a filter is given, filtered.", "quantifier": "all values, categories, filters and keywords", "why_tests_cant": "all values and categories", "anchors": ["riptable/rt_categorical.py: Categorical.__new__", "riptable/rt_grouping.py: Grouping.__init__"]}
{"id": "C159", "title": "Codes with given categories", "statement": "Categorical(codes, categories) shows in every row the category with that number, counting from the base index. Codes that are the number of no category are refused. The integer type asked for makes no difference.", "quantifier": "all codes of signed and unsigned types, categories, filters and keywords", "why_tests_cant": "all codes of all integer types", "anchors": ["riptable/rt_grouping.py: Grouping._from_categories, Grouping.possibly_recast"]}
{"id": "C160", "title": "A pandas Categorical keeps its rows", "statement": "Categorical(pandas Categorical) has the same categories in the same order; every row shows the same category, missing rows and rows that do not pass the filter are filtered.", "quantifier": "all codes and categories of a pandas Categorical, filters and integer types", "why_tests_cant": "all codes and numbers of categories", "anchors": ["riptable/rt_categorical.py: Categorical.__new__"]}
{"id": "C161", "title": "Indexing a Categorical", "statement": "c[rows] shows the rows that a slice, a mask or a list of positions selects, in that order, with the same categories. Positions that do not exist become filtered rows, or rows without category if the base index is 0. Only a slice with step 0 or a mask of the wrong length is refused.", "quantifier": "all Categoricals with any number of keys and all selections", "why_tests_cant": "all slices, masks and positions", "anchors": ["riptable/rt_categorical.py: Categorical.__getitem__", "riptable/rt_grouping.py: Grouping.__getitem__, Grouping.newgroupfrominstance"]}
{"id": "C162", "title": "A copy of a Categorical shows the same rows", "statement": "c.copy() has the same categories and shows the same rows as c.", "quantifier": "all Categoricals", "why_tests_cant": "all Categoricals of both base indices", "anchors": ["riptable/rt_categorical.py: Categorical.copy, Categories._copy, Categorical.__new__"]}
{"id": "C163", "title": "Invalid rows stay invalid", "statement": "A row that isnan() calls invalid stays so when rows are selected or the Categorical is copied.", "quantifier": "all Categoricals and selections", "why_tests_cant": "all Categoricals and selections", "anchors": ["riptable/rt_categorical.py: Categorical.__getitem__, Categorical.copy, Categories.from_grouping"]}
{"id": "C164", "title": "isnan and isnotnan of a Categorical", "statement": "isnan() is True for exactly the rows that show the invalid category, isnotnan() for exactly the others.", "quantifier": "all Categoricals of one key and invalid categories, also those that are no category", "why_tests_cant": "all rows and categories", "anchors": ["riptable/rt_categorical.py: Categorical.isnan, Categorical.isnotnan, Categorical.from_category"]}
{"id": "C165", "title": "Ordering comparisons of a Categorical", "statement": "c < label (and <=, >, >=) compares the labels of the rows with the label, or raises if the Categorical is not ordered.", "quantifier": "all Categoricals of one key and all labels, also those that are no category", "why_tests_cant": "all labels between and beyond the categories", "anchors": ["riptable/rt_categorical.py: Categorical._categorical_compare_check, Categories.get_category_index"]}
{"id": "C166", "title": "Codes of labels and labels of codes", "statement": "from_category(label) gives the code of a category and raises for all other labels; from_bin(code) is its inverse.", "quantifier": "all Categoricals of one key, labels and codes", "why_tests_cant": "all labels and codes", "anchors": ["riptable/rt_categorical.py: Categorical.from_category, Categorical.from_bin, Categories.get_category_index"]}
{"id": "C167", "title": "Codes of keys of several parts", "statement": "from_category(tuple) gives the code of a category of several keys and raises for all other tuples; from_bin(code) is its inverse.", "quantifier": "all Categoricals of several keys and all tuples", "why_tests_cant": "all tuples, present or not", "anchors": ["riptable/rt_categorical.py: Categorical.from_category, Categories.get_multikey_index"]}
{"id": "C168", "title": "Setting the invalid category", "statement": "After invalid_set(label), label a string or bytes, isnan() is True for exactly the rows that show the label; the rows stay the same.", "quantifier": "all Categoricals of one key and all labels", "why_tests_cant": "all labels of both kinds", "anchors": ["riptable/rt_categorical.py: Categorical.invalid_set"]}
{"id": "C169", "title": "where chooses row by row", "statement": "where(condition, x, y), with every argument an array with as many rows as the condition or one number, has in every row the value of x if the condition is not 0 there and otherwise that of y, converted to the common type; numbers that the common type can hold are unchanged, and integers always are unless signed and unsigned 64-bit integers are mixed.", "quantifier": "all conditions, arrays and numbers of all integer and float types", "why_tests_cant": "all arrays, and all pairs of types", "anchors": ["riptable/rt_numpy.py: where, get_common_dtype"]}
{"id": "C170", "title": "where keeps the numbers", "statement": "The values in the result of where(condition, x, y) are values of x and y, and arguments of other lengths than the condition are refused.", "quantifier": "all conditions, arrays and numbers", "why_tests_cant": "depends on the digits of a number and on lengths 0 and 1", "anchors": ["riptable/rt_numpy.py: where, get_common_dtype, min_scalar_type"]}
{"id": "C171", "title": "where of two Categoricals", "statement": "where(condition, c1, c2) of two Categoricals shows in every row the category that the chosen Categorical shows there.", "quantifier": "all pairs of Categoricals (any base index, with and without mapping) and conditions", "why_tests_cant": "all labels, codes and base indices", "anchors": ["riptable/rt_numpy.py: where", "riptable/rt_categorical.py: CatZero"]}
{"id": "C172", "title": "unique gives the different rows once", "statement": "unique of one or several arrays gives the different rows among those that pass the filter, each once, ascending or by first row; return_index gives their first rows, return_inverse the position of every row (-1 if it does not pass) and return_counts how many rows each has. It is refused exactly if there is no array or lengths differ.", "quantifier": "all arrays, filters and combinations of sorted and lex", "why_tests_cant": "all arrays with any repeated values", "anchors": ["riptable/rt_numpy.py: unique", "riptable/rt_grouping.py: Grouping.ikey, Grouping.ifirstkey, Grouping.ncountgroup"]}
{"id": "C173", "title": "unique accepts lists and types", "statement": "unique accepts every list of values and every list of lists, and returns indices of the type asked for.", "quantifier": "all lists (also empty ones) and all dtype arguments", "why_tests_cant": "every form of argument", "anchors": ["riptable/rt_numpy.py: unique"]}
{"id": "C174", "title": "unique of a Categorical", "statement": "unique of a Categorical gives the categories that rows show, each once, and the position of the category of every row.", "quantifier": "all Categoricals (any base index, number of keys, categories without rows)", "why_tests_cant": "all codes and categories", "anchors": ["riptable/rt_numpy.py: unique", "riptable/rt_grouping.py: Grouping.uniquelist, Grouping.ikey"]}
{"id": "C175", "title": "map replaces keys by values", "statement": "arr.map(dict) has for every item the value of the dictionary, or the invalid value if the item is no key; arr.map_old(dict) keeps such items, and does not replace an item twice.", "quantifier": "all arrays and dictionaries", "why_tests_cant": "dictionaries whose values are keys again, in any order", "anchors": ["riptable/rt_fastarray.py: FastArray.map, FastArray.map_old"]}
{"id": "C176", "title": "count gives every value with its number", "statement": "arr.count() is a Dataset with the different values of the array and how often each occurs.", "quantifier": "all arrays with any name", "why_tests_cant": "the array may have any name", "anchors": ["riptable/rt_fastarray.py: FastArray.count"]}
{"id": "C177", "title": "mask functions combine any number of masks", "statement": "mask_and, mask_or, mask_xor and mask_andnot of two or more masks (arrays or single bools) make a new array that says in every row whether all, any, an odd number, or only the first of them are True; no argument is changed, also if an array is given several times.", "quantifier": "all numbers of masks, in any combination, with repetitions", "why_tests_cant": "any number of arguments, aliased in any way", "anchors": ["riptable/rt_numpy.py: mask_and, mask_or, mask_xor, mask_andnot, _mask_op"]}
{"id": "C178", "title": "mask functions in place", "statement": "mask_andi, mask_ori, mask_xori and mask_andnoti put the same result in the first array and change nothing else; the other functions never return one of their arguments.", "quantifier": "all numbers of masks, with repetitions", "why_tests_cant": "any number of arguments, aliased in any way", "anchors": ["riptable/rt_numpy.py: mask_andi, mask_ori, mask_xori, mask_andnoti, _mask_op"]}
{"id": "C179", "title": "cat2keys pairs the categories", "statement": "cat2keys(key1, key2) of keys without filtered rows has every pair of categories once, its columns are those of both keys (renamed if names are equal, none is lost), and every row shows the categories of both keys in that row.", "quantifier": "all keys with any number of columns and any names", "why_tests_cant": "all names and numbers of categories", "anchors": ["riptable/rt_numpy.py: cat2keys"]}
{"id": "C180", "title": "min_scalar_type can hold the number", "statement": "min_scalar_type(n) is the smallest integer type, of the kind asked for, that can hold the number n; with promote_invalid=True n is not the invalid value of that type.", "quantifier": "all integers and combinations of promote_invalid and prefer_signed", "why_tests_cant": "numbers at the boundary of a type", "anchors": ["riptable/rt_numpy.py: min_scalar_type"]}
{"id": "C181", "title": "The type for an integer array and an integer", "statement": "The type in which an integer array is combined with an integer can hold all values of the array and the integer.", "quantifier": "all integer types and integers", "why_tests_cant": "numbers at the boundary of a type", "anchors": ["riptable/rt_fastarray.py: logical_find_common_type"]}
{"id": "C182", "title": "cat2keys with invalid rows", "statement": "cat2keys(key1, key2, invalid=True, filter=f) shows in every row that passes both labels, Inv for an invalid one, and tells rows that do not pass, and different categories, apart.", "quantifier": "all keys, filters and labels", "why_tests_cant": "all labels, and rows that are invalid in either key", "anchors": ["riptable/rt_numpy.py: cat2keys, combine2keys", "riptable/rt_grouping.py: Grouping.onedict"]}
{"id": "C183", "title": "sample takes different rows in order", "statement": "sample(N, filter) has N different rows among all rows or those of the mask (all of them if there are fewer), in their order; masks of another length are refused.", "quantifier": "all numbers of rows, masks, N, and all results of the random generator", "why_tests_cant": "every result of the random generator", "anchors": ["riptable/rt_utils.py: sample", "riptable/rt_dataset.py: Dataset.sample", "riptable/rt_fastarray.py: FastArray.sample"]}
{"id": "C184", "title": "Arrow keeps numbers there and back", "statement": "FastArray.from_arrow(arr.to_arrow()) of an array of integers, floats or bools has the same type, the same value in every row, and the same rows are invalid, however Arrow divides it into chunks.", "quantifier": "all integer, float and bool arrays and all divisions into chunks", "why_tests_cant": "all values, in particular the greatest and the invalid one of every type", "anchors": ["riptable/rt_fastarray.py: FastArray.to_arrow, FastArray.from_arrow, FastArray._from_arrow"]}
{"id": "C185", "title": "from_arrow of numbers keeps values and nulls", "statement": "FastArray.from_arrow of an Arrow array of integers, floats or bools shows every value unchanged and shows nulls as invalid, nothing else.", "quantifier": "all Arrow arrays of numbers, with and without nulls, in any number of chunks", "why_tests_cant": "the invalid value of the type may be a number of the Arrow array", "anchors": ["riptable/rt_fastarray.py: FastArray.from_arrow, FastArray._from_arrow"]}
{"id": "C186", "title": "from_arrow of integers accepts and widens", "statement": "FastArray.from_arrow of integers raises exactly if a copy is needed but not allowed, or if the invalid value of the type occurs and the type may not or cannot be made larger; the result has the next larger type exactly in the case that the invalid value occurs.", "quantifier": "all Arrow integer arrays and settings of zero_copy_only and auto_widen", "why_tests_cant": "numbers at the boundary of a type", "anchors": ["riptable/rt_fastarray.py: FastArray._from_arrow"]}
{"id": "C187", "title": "Arrow keeps text there and back", "statement": "from_arrow(arr.to_arrow()) of an array of text has the same text in every row; with preserve_fixed_bytes the same bytes.", "quantifier": "all arrays of bytes or Unicode and settings", "why_tests_cant": "all characters", "anchors": ["riptable/rt_fastarray.py: FastArray.to_arrow, FastArray._from_arrow"]}
{"id": "C188", "title": "from_arrow of text keeps every row", "statement": "FastArray.from_arrow of an Arrow array of text or fixed-size binary has the text of every row, and empty text for nulls.", "quantifier": "all Arrow text and binary arrays, in chunks or sliced", "why_tests_cant": "all characters and all slices", "anchors": ["riptable/rt_fastarray.py: FastArray._from_arrow"]}
{"id": "C189", "title": "Arrow keeps Categoricals there and back", "statement": "Categorical.from_arrow(c.to_arrow()) shows the same category in every row, with the same filtered rows and the same categories.", "quantifier": "all Categoricals of one key, with base index 0 or 1, whose categories come back", "why_tests_cant": "all codes and base indices", "anchors": ["riptable/rt_categorical.py: Categorical.to_arrow, Categorical.from_arrow"]}
{"id": "C190", "title": "from_arrow of dictionary arrays shows the labels", "statement": "Categorical.from_arrow of an Arrow dictionary array shows in every row the dictionary value of its index, filtered for null, for every type of the indices and size of the dictionary.", "quantifier": "all dictionary arrays", "why_tests_cant": "indices and sizes at the boundary of a type", "anchors": ["riptable/rt_categorical.py: Categorical.from_arrow"]}
{"id": "C191", "title": "from_arrow of dictionary arrays in chunks", "statement": "Categorical.from_arrow of a chunked dictionary array, each chunk with its own dictionary, shows the rows of all chunks one after the other.", "quantifier": "all numbers of chunks and dictionaries", "why_tests_cant": "all dictionaries, also empty ones and no chunk at all", "anchors": ["riptable/rt_categorical.py: Categorical.from_arrow", "riptable/rt_hstack.py: hstack"]}
{"id": "C192", "title": "Arrow keeps Categoricals of several keys", "statement": "Categorical.from_arrow(c.to_arrow()) of a Categorical with several keys shows the same tuple in every row.", "quantifier": "all Categoricals of several keys of any type", "why_tests_cant": "all types of keys", "anchors": ["riptable/rt_categorical.py: Categorical.to_arrow, Categorical.from_arrow"]}
{"id": "C193", "title": "Arrow keeps mappings", "statement": "Categorical.from_arrow(c.to_arrow()) of a Categorical with a mapping of names and codes (dictionary or IntEnum) has the same code in every row and the same mapping.", "quantifier": "all mappings and codes, with and without names for the codes", "why_tests_cant": "all codes, in particular the invalid one", "anchors": ["riptable/rt_categorical.py: Categorical.to_arrow, Categorical.from_arrow"]}
{"id": "C194", "title": "Arrow keeps Dates there and back", "statement": "Date.from_arrow(d.to_arrow()) shows the same date in every row and the same rows are invalid, in whatever chunks.", "quantifier": "all Dates and divisions into chunks", "why_tests_cant": "all days, 0 and the invalid one included", "anchors": ["riptable/rt_datetime.py: Date.to_arrow, Date._from_arrow"]}
{"id": "C195", "title": "from_arrow of dates keeps every date", "statement": "Date.from_arrow of a date32 or date64 array shows every date unchanged and nulls as invalid.", "quantifier": "all Arrow arrays of dates in any number of chunks", "why_tests_cant": "all days", "anchors": ["riptable/rt_datetime.py: Date._from_arrow"]}
{"id": "C196", "title": "Arrow keeps DateTimeNano there and back", "statement": "DateTimeNano.from_arrow(t.to_arrow()) has the same instant in every row, the same invalid rows, and is displayed the same.", "quantifier": "all times and time zones", "why_tests_cant": "all instants in all time zones", "anchors": ["riptable/rt_datetime.py: DateTimeNano.to_arrow, DateTimeNano._from_arrow, DateTimeNano.__new__"]}
{"id": "C197", "title": "from_arrow of timestamps keeps every instant", "statement": "DateTimeNano.from_arrow of an Arrow timestamp array has the same instant in every row and nulls are invalid, for every unit and time zone; it raises only if a time does not fit.", "quantifier": "all timestamp arrays, units, time zones and chunks", "why_tests_cant": "all instants, nulls, in all time zones", "anchors": ["riptable/rt_datetime.py: DateTimeNano._from_arrow, DateTimeNano.__new__", "riptable/rt_timezone.py: TimeZone.to_utc"]}
{"id": "C198", "title": "Arrow keeps TimeSpans", "statement": "TimeSpan.from_arrow of durations keeps every duration, nulls are invalid, and TimeSpan.from_arrow(t.to_arrow()) has the same time span in every row.", "quantifier": "all time spans, durations, units and chunks", "why_tests_cant": "all sizes of numbers", "anchors": ["riptable/rt_datetime.py: TimeSpan.to_arrow, TimeSpan._from_arrow"]}
{"id": "C199", "title": "Arrow keeps Datasets column by column", "statement": "Dataset.to_arrow makes a table with a column for every column, in the same order with the same names, and raises exactly if a column cannot be converted; from_arrow of the table is the Dataset again if every column comes back.", "quantifier": "all Datasets with any columns", "why_tests_cant": "any number and kind of columns", "anchors": ["riptable/rt_dataset.py: Dataset.to_arrow, Dataset.from_arrow"]}
{"id": "C200", "title": "from_arrow of a table has every column", "statement": "Dataset.from_arrow makes a Dataset with a column for every column of the table, in the same order with the same names, and raises exactly if a column cannot be converted.", "quantifier": "all Arrow tables", "why_tests_cant": "any column names", "anchors": ["riptable/rt_dataset.py: Dataset.from_arrow"]}
{"id": "C201", "title": "Integers go to pandas and come back", "statement": "to_pandas of an integer column shows in pandas the same numbers, and nothing where riptable has a missing value; converting it back gives the same type and the same values, with use_nullable and without.", "quantifier": "all integer types and columns, both settings of use_nullable", "why_tests_cant": "missing values are numbers of the type, at any row", "anchors": ["riptable/Utils/pandas_utils.py: fastarray_to_pandas_series, pandas_series_to_riptable"]}
{"id": "C202", "title": "Missing integers are missing in pandas without nullable types", "statement": "to_pandas(use_nullable=False) of an integer column shows the same rows as missing as riptable does.", "quantifier": "all integer columns", "why_tests_cant": "missing values at any row", "anchors": ["riptable/Utils/pandas_utils.py: fastarray_to_pandas_series"]}
{"id": "C203", "title": "Nullable integers of pandas keep their rows", "statement": "A nullable integer column of pandas becomes a riptable column of the same type that shows the same number, or the same missing value, in every row.", "quantifier": "all nullable integer columns", "why_tests_cant": "one number of every type is the missing value of riptable", "anchors": ["riptable/Utils/pandas_utils.py: pandas_series_to_riptable"]}
{"id": "C204", "title": "Dates go to pandas", "statement": "A Date column goes to pandas as a column of dates, with the same days and the same missing rows.", "quantifier": "all Date columns", "why_tests_cant": "all days, in particular those that stand for missing dates", "anchors": ["riptable/Utils/pandas_utils.py: fastarray_to_pandas_series"]}
{"id": "C205", "title": "Text goes to pandas and comes back", "statement": "A text column shows in pandas the same texts; converted back it has the same texts, as bytes exactly if all characters are ASCII. to_pandas raises exactly if the column has bytes that are no ASCII.", "quantifier": "all text columns, bytes or Unicode", "why_tests_cant": "all texts", "anchors": ["riptable/Utils/pandas_utils.py: fastarray_to_pandas_series, pandas_series_to_riptable"]}
{"id": "C206", "title": "Missing cells of pandas text columns", "statement": "An object column of pandas with texts and missing cells becomes a text column with the same texts, in which the missing cells are told from the texts.", "quantifier": "all object columns with texts and missing cells", "why_tests_cant": "missing cells at any row and any text", "anchors": ["riptable/Utils/pandas_utils.py: pandas_series_to_riptable"]}
{"id": "C207", "title": "Object columns of pandas keep their cells", "statement": "An object column of pandas becomes a riptable column with the same cells, whatever their order.", "quantifier": "all object columns", "why_tests_cant": "the type is taken from one cell; any cell may follow", "anchors": ["riptable/Utils/pandas_utils.py: pandas_series_to_riptable"]}
{"id": "C208", "title": "Categoricals of pandas keep their rows", "statement": "A Categorical column of pandas becomes a Categorical with the same categories in the same order, in which every row shows the same category; rows without a category are filtered, no others. Nothing overflows, however many categories there are.", "quantifier": "all pandas Categoricals", "why_tests_cant": "the number of categories at the limits of the integer types", "anchors": ["riptable/Utils/pandas_utils.py: pandas_series_to_riptable", "riptable/rt_categorical.py: Categorical.__new__"]}
{"id": "C209", "title": "Categoricals with base index 1 go to pandas and come back", "statement": "A Categorical with base index 1 and different categories shows the same rows and categories in pandas, and comes back with the same base index, codes and categories.", "quantifier": "all such Categoricals", "why_tests_cant": "all codes and numbers of categories", "anchors": ["riptable/Utils/pandas_utils.py: fastarray_to_pandas_series, pandas_series_to_riptable"]}
{"id": "C210", "title": "Categoricals with base index 0 go to pandas", "statement": "A Categorical with base index 0 goes to pandas with the same rows, also missing ones.", "quantifier": "all such Categoricals", "why_tests_cant": "missing rows at any place", "anchors": ["riptable/Utils/pandas_utils.py: fastarray_to_pandas_series"]}
{"id": "C211", "title": "Times go to pandas and come back", "statement": "A DateTimeNano column comes back from pandas with the same instants, shown in the same time zone.", "quantifier": "all DateTimeNano columns, time zones and 64 bit values", "why_tests_cant": "all instants and time zones", "anchors": ["riptable/Utils/pandas_utils.py: fastarray_to_pandas_series, pandas_series_to_riptable"]}
{"id": "C212", "title": "Times are shown in pandas", "statement": "A DateTimeNano column shows in pandas the same instants, and NaT exactly where riptable shows an invalid time.", "quantifier": "all DateTimeNano columns", "why_tests_cant": "all instants, in particular those that stand for an invalid time", "anchors": ["riptable/Utils/pandas_utils.py: fastarray_to_pandas_series"]}
{"id": "C213", "title": "Timestamps of pandas keep their instants", "statement": "A timestamp column of pandas becomes a DateTimeNano with the same instants, invalid exactly where pandas has NaT, shown in the time zone of the column.", "quantifier": "all timestamp columns of any unit and time zone", "why_tests_cant": "all units, time zones and instants", "anchors": ["riptable/Utils/pandas_utils.py: pandas_series_to_riptable", "riptable/rt_datetime.py: DateTimeNano.__new__"]}
{"id": "C214", "title": "TimeSpans go to pandas and come back", "statement": "A TimeSpan column shows in pandas the same time differences and comes back as it was.", "quantifier": "all TimeSpan columns", "why_tests_cant": "all spans", "anchors": ["riptable/Utils/pandas_utils.py: fastarray_to_pandas_series, pandas_series_to_riptable"]}
{"id": "C215", "title": "Time differences of pandas become TimeSpans", "statement": "A time difference column of pandas becomes a TimeSpan column with the same spans, NaN exactly for NaT.", "quantifier": "all time difference columns of any unit", "why_tests_cant": "all units and spans", "anchors": ["riptable/Utils/pandas_utils.py: pandas_series_to_riptable"]}
{"id": "C216", "title": "Datasets go to pandas and come back", "statement": "to_pandas gives a frame with a column for every column, in the same order with the same name, and the default index; it raises exactly if a column cannot be converted. from_pandas of it gives the Dataset again, if every column comes back.", "quantifier": "all Datasets and column conversions", "why_tests_cant": "any number and kind of columns", "anchors": ["riptable/rt_dataset.py: Dataset.to_pandas, Dataset.from_pandas"]}
{"id": "C217", "title": "Frames become Datasets", "statement": "Dataset.from_pandas gives a Dataset with a column for every column of the frame, in the same order with the same name; with preserve_index, or by default if the index is not the default one, the index is the first column.", "quantifier": "all frames, indices and settings of preserve_index", "why_tests_cant": "any names, in particular repeated ones and ones like that of the index", "anchors": ["riptable/rt_dataset.py: Dataset.from_pandas, Dataset._init_from_dict", "riptable/rt_struct.py: Struct._validate_names"]}
{"id": "C218", "title": "DateTimeNano arrays keep their instants and show the clock of their zone", "statement": "After any calls of making, indexing, copying, viewing, calculating, stacking, astimezone and set_timezone, every array and scalar that there was before has the same instants, and its clock (to_iso, hour and so on) is the wall clock of the zone that it is displayed in, whatever zones came before. Results of astimezone, arithmetic and indexing have exactly the instants that were calculated.", "quantifier": "all histories of calls and all objects in them", "why_tests_cant": "any sequence of calls in any order on any object", "anchors": ["riptable/rt_datetime.py: DateTimeNano.__new__, DateTimeNano.set_timezone, DateTimeNano.astimezone, DateTimeNano.newclassfrominstance, DateTimeBase.__getitem__, DateTimeBase.copy, DateTimeBase.__array_finalize__", "riptable/rt_timezone.py: TimeZone.copy, TimeZone._set_timezone"]}
{"id": "C219", "title": "set_timezone changes one array", "statement": "set_timezone changes the zone in which this array is displayed, and that of no other array or scalar; every new array or scalar is displayed in the zone of the one it comes from.", "quantifier": "all histories of calls and all objects in them", "why_tests_cant": "which objects share a time zone depends on all calls before", "anchors": ["riptable/rt_datetime.py: DateTimeNano.set_timezone, DateTimeBase.__array_finalize__, DateTimeBase.__getitem__, DateTimeNanoScalar.__init__"]}
{"id": "C220", "title": "hstack of times", "statement": "hstack of DateTimeNano arrays raises exactly if not all are displayed in the same zone; otherwise it has the instants of all of them in order, displayed in that zone.", "quantifier": "all histories of calls, any number of arrays", "why_tests_cant": "any number of arrays after any calls of set_timezone", "anchors": ["riptable/rt_hstack.py: hstack_any, _hstack_datetimenano"]}
{"id": "C221", "title": "A time and its scalar agree on isnan", "statement": "d[i].isnan() is the same as d.isnan()[i].", "quantifier": "all 64 bit instants", "why_tests_cant": "all instants", "anchors": ["riptable/rt_datetime.py: DateTimeNano.isnan, DateTimeNanoScalar.isnan"]}
{"id": "C222", "title": "A time as a column", "statement": "Assigning a DateTimeNano scalar to a column of a Dataset gives a column with this instant in every row, displayed in the same zone.", "quantifier": "all instants, zones and numbers of rows", "why_tests_cant": "all instants and zones", "anchors": ["riptable/rt_datetime.py: DateTimeNanoScalar.repeat, DateTimeNanoScalar.tile", "riptable/rt_dataset.py: Dataset._check_addtype"]}
{"id": "C223", "title": "Scalar times plus spans", "statement": "d[i] + span and d[i] - span are what d + span and d - span have at i: the sum or difference, invalid exactly if one of the two is.", "quantifier": "all instants and spans", "why_tests_cant": "all instants and spans", "anchors": ["riptable/rt_datetime.py: DateTimeNanoScalar.__add__, DateTimeNanoScalar.__sub__, DateTimeCommon._build_mathops_result, _apply_inv_mask"]}
{"id": "C224", "title": "Scalar times plus spans keep their zone", "statement": "d[i] + span and d[i] - span are displayed in the zone of d.", "quantifier": "all instants, spans and zones", "why_tests_cant": "all zones", "anchors": ["riptable/rt_datetime.py: DateTimeCommon._build_mathops_result"]}
{"id": "C225", "title": "Times from a start date", "statement": "DateTimeNano(spans, from_tz, start_date=dates) gives for every row the instant at which the clocks in from_tz show the span after midnight of the date, invalid if the span or the date is; it raises exactly if the number of dates is neither that of the spans nor 1.", "quantifier": "all spans, dates and zones", "why_tests_cant": "all spans, dates and zones", "anchors": ["riptable/rt_datetime.py: DateTimeNano.__new__"]}
{"id": "C226", "title": "Columns of a Dataset have the same number of rows", "statement": "After any assignments to columns (also ones that raise), deletions and calls of head and tail, all columns of a Dataset have equally many rows, and this is the number that the Dataset reports.", "quantifier": "all histories of calls, all values assigned", "why_tests_cant": "failed calls leave traces that only show many calls later", "anchors": ["riptable/rt_dataset.py: Dataset._check_addtype, Dataset._possibly_convert_array, Dataset._check_add_dimensions, Dataset.head, Dataset.tail", "riptable/rt_struct.py: Struct._deleteitem, Struct._addnewitem, Struct._replaceitem"]}
{"id": "C227", "title": "Assigning a column", "statement": "In a Dataset with at least one row, assigning as many values as rows gives this column, assigning one value (alone, in a list or an array) fills all rows, at the place of the column if it exists, else last. Everything else raises and leaves the Dataset unchanged; all other columns stay.", "quantifier": "all Datasets with rows, all names, all values", "why_tests_cant": "lengths and kinds of values combine", "anchors": ["riptable/rt_dataset.py: Dataset._check_addtype, Dataset._possibly_convert_array, Dataset._check_add_dimensions"]}
{"id": "C228", "title": "A Dataset without columns takes any first column", "statement": "A Dataset that has no columns takes an array or a list of any length as its first column, whatever happened to it before; and a Dataset without rows takes one value in an array as in a list.", "quantifier": "all histories of calls that end without columns, all arrays", "why_tests_cant": "it depends on what was called before", "anchors": ["riptable/rt_dataset.py: Dataset._check_addtype, Dataset.head, Dataset.tail, Dataset._check_add_dimensions", "riptable/rt_struct.py: Struct._deleteitem"]}
{"id": "C229", "title": "Object arrays keep their values as columns", "statement": "A numpy array of Python objects (text, numbers, bools) becomes a column whose cells equal the objects.", "quantifier": "all object arrays", "why_tests_cant": "only the first object is looked at", "anchors": ["riptable/rt_dataset.py: Dataset._possibly_convert_array, Dataset._object_as_string"]}
{"id": "C230", "title": "iterrows gives the rows", "statement": "iterrows gives for every row number a Struct with the values of this row.", "quantifier": "all Datasets, all moments of looking at the Structs", "why_tests_cant": "it shows only when rows are kept while the loop goes on", "anchors": ["riptable/rt_dataset.py: Dataset.iterrows"]}
{"id": "C231", "title": "asrows gives the rows", "statement": "Every object given by asrows has the values of its row, one of every column in order, then and after the loop went on.", "quantifier": "all Datasets, all rows, all moments of looking at them", "why_tests_cant": "all sizes of Datasets", "anchors": ["riptable/rt_dataset.py: Dataset.asrows, Dataset.tolist"]}
{"id": "C232", "title": "gbrows groups the cells of a row", "statement": "gbrows makes one group for every row with exactly the values of this row, in the order of the columns.", "quantifier": "all Datasets and rows", "why_tests_cant": "all numbers of rows and columns", "anchors": ["riptable/rt_dataset.py: Dataset.gbrows"]}
{"id": "C233", "title": "apply calls the function on every column", "statement": "apply(f, ...) gives a Dataset in which every column is f of the column with the given arguments.", "quantifier": "all Datasets, functions and arguments", "why_tests_cant": "any name of the function", "anchors": ["riptable/rt_dataset.py: Dataset.apply"]}
{"id": "C234", "title": "apply with several functions", "statement": "apply with a list of functions gives the result of every function under its capitalized name.", "quantifier": "all Datasets and lists of functions", "why_tests_cant": "any names of functions", "anchors": ["riptable/rt_dataset.py: Dataset.apply"]}
{"id": "C235", "title": "imatrix_y adds a column for every function", "statement": "imatrix_y(funcs, names) adds for every function a column of its results on the rows of the matrix, under its name, and keeps all other columns.", "quantifier": "all matrices, lists of functions and names", "why_tests_cant": "any number of functions and names", "anchors": ["riptable/rt_dataset.py: Dataset.imatrix_y, Dataset._imatrix_y_internal"]}
{"id": "C236", "title": "add_matrix adds every column of the matrix", "statement": "add_matrix(m, names) gives the j-th column of the matrix the j-th name and keeps all other columns.", "quantifier": "all Datasets, matrices and names", "why_tests_cant": "any number of columns and names", "anchors": ["riptable/rt_dataset.py: Dataset.add_matrix"]}
{"id": "C237", "title": "Calculating with two integer arrays is exact", "statement": "np.add, np.subtract, np.multiply, np.minimum and np.maximum of two integer arrays give in every row the exact result whenever the type of the result can hold it (minimum and maximum always).", "quantifier": "all pairs of integer types, all arrays of valid numbers of the same length", "why_tests_cant": "16 pairs of types and 2^64 numbers", "anchors": ["riptable/rt_fastarray.py: FastArray.__array_ufunc__, _ASTYPE, logical_find_common_type"]}
{"id": "C238", "title": "Comparing two integer arrays is true to the numbers", "statement": "np.less, np.equal and the other comparisons of two integer arrays are True in exactly the rows where they hold of the numbers.", "quantifier": "all pairs of integer types, all arrays of valid numbers of the same length", "why_tests_cant": "only differences in the last digits of large numbers are lost", "anchors": ["riptable/rt_fastarray.py: FastArray.__array_ufunc__, _ASTYPE"]}
{"id": "C239", "title": "Comparing an integer array with an integer", "statement": "np.less(a, k), np.equal(a, k), ... of an integer array and a Python integer are True in exactly the rows where they hold of the numbers.", "quantifier": "all integer types, all arrays of valid numbers, all integers k", "why_tests_cant": "the type depends on the sign and size of k", "anchors": ["riptable/rt_fastarray.py: FastArray.__array_ufunc__, logical_find_common_type"]}
{"id": "C240", "title": "Results written to out", "statement": "np.multiply(a, b, out=c), ... writes the exact results into c whenever the type of c can hold them.", "quantifier": "all types of a, b and c, all numbers", "why_tests_cant": "the inputs are converted first only for some combinations of types", "anchors": ["riptable/rt_fastarray.py: FastArray.__array_ufunc__"]}
{"id": "C241", "title": "Filtered sums", "statement": "x.nansum(filter=f) of an integer array (not uint64) is the sum of the values that are not missing in the rows where f is True, however the rows are shared among threads, if this sum fits into 64 bits; filters of another length are refused.", "quantifier": "all integer arrays, filters (masks, True, False) and all schedules of the parallel loop", "why_tests_cant": "schedules cannot be chosen in a test, and partial sums may overflow", "anchors": ["riptable/rt_fastarray.py: _fnansum, _fnansumhelper, FastArray.nansum, FastArray._fa_filter_wrapper"]}
{"id": "C242", "title": "Filtered means", "statement": "x.nanmean(filter=f) and x.mean(filter=f) of an integer array are the average of the values that are not missing (nanmean) or of all values (mean) in the rows where f is True; if there is none they raise ZeroDivisionError.", "quantifier": "all integer arrays, filters and all schedules of the parallel loop", "why_tests_cant": "schedules cannot be chosen in a test", "anchors": ["riptable/rt_fastarray.py: _fnanmean, _fmean, FastArray.nanmean, FastArray.mean"]}
{"id": "C243", "title": "Filtered variances", "statement": "x.var(filter=f) and x.nanvar(filter=f) are the sample variance (ddof = 1) of the values that take part, NaN for a single value, ZeroDivisionError for none.", "quantifier": "all arrays, filters and all schedules of the two parallel loops (exact arithmetic)", "why_tests_cant": "schedules cannot be chosen in a test", "anchors": ["riptable/rt_fastarray.py: _fnanvar, _fvar, FastArray.var, FastArray.nanvar"]}
{"id": "C244", "title": "nanvar leaves out missing values with any ddof", "statement": "x.nanvar(ddof=d) of an integer array is the variance with this ddof of the values that are not missing.", "quantifier": "all integer arrays and all d", "why_tests_cant": "needs missing values together with another ddof", "anchors": ["riptable/rt_fastarray.py: FastArray.nanvar, FastArray._kwarg_check, FastArray._reduce_check"]}
{"id": "C245", "title": "nansum along an axis", "statement": "m.nansum(axis=a) of a matrix of integers gives the sums of the values that are not missing: of the columns for a = 0 or -2, of the rows for a = 1 or -1, of everything without axis.", "quantifier": "all matrices of integers and all axes", "why_tests_cant": "one value of axis is treated as no axis", "anchors": ["riptable/rt_fastarray.py: FastArray.nansum, FastArray._fa_keyword_wrapper, FastArray._reduce_check"]}
{"id": "C246", "title": "Filtered sums of uint64 arrays", "statement": "x.nansum(filter=f) of a uint64 array is the sum of the values that are not missing in the rows where f is True, if it fits into 64 bits.", "quantifier": "all uint64 arrays, filters and schedules of the parallel loop", "why_tests_cant": "only large numbers lose digits", "anchors": ["riptable/rt_fastarray.py: _fnansum, _fnansumhelper"]}
{"id": "C247", "title": "Loading rows by number", "statement": "load_sds(file, filter=numbers) loads the rows with these numbers as fancy indexing would: in the given order, as often as given, negative numbers counted from the end; an empty filter loads no rows.", "quantifier": "all files, all integer filters", "why_tests_cant": "order, repetition and negative numbers must all be tried", "anchors": ["riptable/rt_sds.py: _convert_to_mask, decompress_dataset_internal, _make_zero_length"]}
{"id": "C248", "title": "Filters of shared files", "statement": "load_sds(file, share=name, filter=f) loads the rows of f, as without share.", "quantifier": "all files and filters", "why_tests_cant": "the filter is accepted either way", "anchors": ["riptable/rt_sds.py: decompress_dataset_internal"]}
{"id": "C249", "title": "Stacked files show every row as it was", "statement": "load_sds(files, stack=True) of saved Datasets whose columns of one name are of one kind has the columns of all files; its rows are the rows of the files one after the other, and every cell of a column of numbers, times or of a Categorical with base index 1 shows what it showed in its file, and is missing if its file had no such column.", "quantifier": "all lists of Datasets (any sets of columns, categories and numbers of rows)", "why_tests_cant": "files without a column, empty files and different categories combine", "anchors": ["riptable/rt_sds.py: _multistack_items, _multistack_categoricals", "riptable/rt_grouping.py: merge_cats, hstack_groupings"]}
{"id": "C250", "title": "Stacked files show rows of other Categoricals as they were", "statement": "The same for Categoricals with base index 0 and for Categoricals made of a mapping: every row of the stack shows what it showed in its file and is missing if its file had no such column.", "quantifier": "all lists of Datasets with such columns", "why_tests_cant": "needs a file without the column, or a code without a label", "anchors": ["riptable/rt_sds.py: _multistack_categoricals", "riptable/rt_grouping.py: merge_cats"]}
{"id": "C251", "title": "Stacking columns of different classes", "statement": "If columns of one name have different classes (numbers, dates, times, Categoricals), stacking their files raises or keeps what every row shows.", "quantifier": "all lists of Datasets", "why_tests_cant": "needs a column whose class changed from one file to the next", "anchors": ["riptable/rt_sds.py: _multistack_items"]}
{"id": "C252", "title": "Loading rows by a boolean filter", "statement": "load_sds(file, filter=mask) loads in every column exactly the rows where the mask is True, in the order of the file; filters that are neither booleans nor integers are refused.", "quantifier": "all files, all masks that are not empty", "why_tests_cant": "masks of any length and content", "anchors": ["riptable/rt_sds.py: _convert_to_mask, decompress_dataset_internal"]}
{"id": "C253", "title": "Categoricals of different modes are never stacked", "statement": "Loading a stack raises if two files hold under one name Categoricals of different base index, or a mapping and an array of categories (and no file holds anything else under this name).", "quantifier": "all lists of Datasets", "why_tests_cant": "the position of the two files among others does not matter", "anchors": ["riptable/rt_sds.py: _multistack_categoricals"]}
{"id": "C254", "title": "TimeSpans are shown exactly", "statement": "The text a TimeSpan is shown with reads, sign and days included, as exactly its nanoseconds; different spans are shown differently.", "quantifier": "all TimeSpans of whole nanoseconds and less than 2^62 ns, all ways to break ties in float64 division", "why_tests_cant": "the seconds come from a float64 division, which would have to be tried at every second", "anchors": ["riptable/rt_datetime.py: TimeSpanBase.display_item_clock, DateTimeBase._add_nano_ext"]}
{"id": "C255", "title": "The precision of shown times", "statement": "With DateTimeBase.PRECISION = p, times are shown with the first p digits of the fraction of their second.", "quantifier": "all precisions and times", "why_tests_cant": "the default precision shows nothing of it", "anchors": ["riptable/rt_datetime.py: DateTimeBase._add_nano_ext"]}
{"id": "C256", "title": "DateTimeNanos are shown exactly", "statement": "The text a DateTimeNano is shown with (long format) reads as exactly its nanoseconds on the clock of its time zone, also before 1970.", "quantifier": "all DateTimeNanos but 0 and the invalid, all time zones and histories of offsets", "why_tests_cant": "negative times and offsets combine with the split into seconds and nanoseconds", "anchors": ["riptable/rt_datetime.py: DateTimeNano.format_nano_time, _parse_item_format, DateTimeBase._add_nano_ext"]}
{"id": "C257", "title": "strftime of DateTimeNanos", "statement": "DateTimeNano.strftime writes the date and time the moment has on the clock of its time zone; digits that are not written are cut off.", "quantifier": "all DateTimeNanos, time zones and formats", "why_tests_cant": "only the last microsecond before a full second is affected", "anchors": ["riptable/rt_datetime.py: DateTimeCommon._strftime"]}
{"id": "C258", "title": "strftime of TimeSpans", "statement": "TimeSpan.strftime writes the hours, minutes, seconds and microseconds of a span with its sign; different spans are written differently.", "quantifier": "all TimeSpans of whole microseconds", "why_tests_cant": "depends on float64 division and on the size of the span", "anchors": ["riptable/rt_datetime.py: TimeSpanBase._strftime"]}
{"id": "C259", "title": "hhmmss of TimeSpans", "statement": "TimeSpan.hhmmss is the number whose digits are the hours, minutes and seconds of the span, with its sign.", "quantifier": "all TimeSpans", "why_tests_cant": "negative spans with and without whole minutes", "anchors": ["riptable/rt_datetime.py: TimeSpanBase.hhmmss"]}
{"id": "C260", "title": "TimeSpans shown in a unit", "statement": "A TimeSpan shown with a unit is shown in the largest unit of which it holds at least one, and the number shown is right to one thousandth of the unit.", "quantifier": "all TimeSpans of less than 2^62 ns", "why_tests_cant": "thresholds and rounding of division and of decimals", "anchors": ["riptable/rt_datetime.py: TimeSpanBase.display_item_unit, _display_resolution"]}
{"id": "C261", "title": "The short clock format hides no seconds", "statement": "TimeSpan.clock_format_short is hours and minutes just when every span is a whole number of minutes, and hours, minutes and seconds just when every span is a whole number of seconds but not every one of minutes.", "quantifier": "all arrays of TimeSpans of whole nanoseconds and less than 2^62 ns", "why_tests_cant": "a fraction could vanish in the float64 division for one value out of many", "anchors": ["riptable/rt_datetime.py: TimeSpanBase.clock_format_short, seconds, minutes"]}
{"id": "C262", "title": "Flattening loses no file, wherever it is interrupted", "statement": "If sds_flatten is interrupted at any moment, by a crash or by an exception, every file that was in the folder or its subfolders is still there with its content, under its old or a new name.", "quantifier": "all folders of files and subfolders, all points of interruption", "why_tests_cant": "tests run to the end, in folders without conflicts", "anchors": ["riptable/rt_sds.py: sds_flatten"]}
{"id": "C263", "title": "Flattening takes a subfolder whole or not at all", "statement": "After sds_flatten each subfolder is unchanged or all of its files are at their documented places in the main folder; a subfolder with something other than .sds files, or with a name that is taken in the main folder, is left as it is; files of the main folder stay.", "quantifier": "all folders of files and subfolders", "why_tests_cant": "the conflicts between names of files and folders are without end", "anchors": ["riptable/rt_sds.py: sds_flatten"]}
{"id": "C264", "title": "Flattening without conflicts is complete", "statement": "If the subfolders have only .sds files and no place is taken, sds_flatten leaves no subfolder; file f of subfolder n is n!f, and _root.sds is n.sds (n without .sds), and there is no other new file.", "quantifier": "all folders of .sds files whose places are free", "why_tests_cant": "any number of subfolders and files, names with any endings", "anchors": ["riptable/rt_sds.py: sds_flatten"]}
{"id": "C265", "title": "Flattening can be done again after an interruption", "statement": "If sds_flatten is interrupted and called again, it leaves the files a single run would have left.", "quantifier": "all folders of .sds files whose places are free, all points of interruption", "why_tests_cant": "interruptions at each operation of the disk would have to be tried", "anchors": ["riptable/rt_sds.py: sds_flatten"]}
{"id": "C266", "title": "A decayed sum adds up each value decayed from its own time", "statement": "Entry i of a.ema_decay(time, rate) is the sum over rows j up to i of a[j] * exp(-rate * (time[i] - time[j])), NaN counted as zero.", "quantifier": "all columns of numbers and NaN, all times in any order, all rates", "why_tests_cant": "the loop keeps one register; that it stands for the whole sum is an invariant", "anchors": ["riptable/rt_fastarraynumba.py: ema_decay, nb_ema_decay"]}
{"id": "C267", "title": "Without decay a decayed sum is the running sum", "statement": "ema_decay with rate 0 gives the running sum of the values, NaN counted as zero, whatever the times are.", "quantifier": "all columns of numbers and NaN, all times", "why_tests_cant": "documented for one example", "anchors": ["riptable/rt_fastarraynumba.py: ema_decay"]}
{"id": "C268", "title": "A filter keeps rows out of a decayed sum", "statement": "With a filter, entry i of ema_decay is the decayed sum of the rows up to i in the filter; a filter that keeps all rows gives the result without filter.", "quantifier": "all columns, times and filters", "why_tests_cant": "the rows in the filter can be any subset", "anchors": ["riptable/rt_fastarraynumba.py: ema_decay, nb_ema_decay_with_filter"]}
{"id": "C269", "title": "A reset starts a decayed sum anew", "statement": "With a filter and a reset mask, each row where the reset mask is True starts anew: entry i is the decayed sum of the rows of the filter since then, whatever came before; a row out of the filter has the entry before it.", "quantifier": "all columns, times, filters and reset masks", "why_tests_cant": "the rows of both masks can be any subsets", "anchors": ["riptable/rt_fastarraynumba.py: ema_decay, nb_ema_decay_with_filter_and_reset"]}
{"id": "C270", "title": "A decayed sum depends on differences of times only", "statement": "Adding a constant to all times does not change the result of ema_decay.", "quantifier": "all columns, times and constants", "why_tests_cant": "the first row is combined with time zero in the code", "anchors": ["riptable/rt_fastarraynumba.py: ema_decay, nb_ema_decay"]}
{"id": "C271", "title": "Comparing Structs gives the union of the keys", "statement": "If a comparison of two Structs (==, !=, <, <=, >, >=) gives a result, its keys are those of the left Struct in order, then those of the right one that the left lacks.", "quantifier": "all pairs of Structs, all comparisons", "why_tests_cant": "any number of keys in common and apart", "anchors": ["riptable/rt_struct.py: Struct._struct_compare_check"]}
{"id": "C272", "title": "Keys of one Struct only compare False", "statement": "In a comparison of two Structs, a key that only one of them has is False.", "quantifier": "all pairs of Structs, all comparisons", "why_tests_cant": "the right object is asked for attributes, of which it has hundreds", "anchors": ["riptable/rt_struct.py: Struct._struct_compare_check"]}
{"id": "C273", "title": "Arrays in Structs compare as a whole", "statement": "Where both Structs have an array, the value in the result of == is True exactly if the arrays are equal, and that of != exactly if they are not.", "quantifier": "all pairs of arrays in Structs", "why_tests_cant": "lengths zero and one take their own ways through bool()", "anchors": ["riptable/rt_struct.py: Struct._struct_compare_check"]}
{"id": "C274", "title": "A Struct equals itself", "statement": "s == s, or s == t with t of the same contents, is True at every key, to any depth of nesting.", "quantifier": "all Structs of numbers, texts, None, arrays and Structs", "why_tests_cant": "nesting is without bound", "anchors": ["riptable/rt_struct.py: Struct._struct_compare_check, Struct.all, Struct.__bool__"]}
{"id": "C275", "title": "Values that cannot be compared are False", "statement": "If at some key the two values of Structs cannot be compared, the result is False there, and the comparison of the Structs does not fail.", "quantifier": "all pairs of Structs, all comparisons", "why_tests_cant": "the pairs of types are many", "anchors": ["riptable/rt_struct.py: Struct._struct_compare_check"]}
{"id": "C276", "title": "Reading a CSV file gives its rows under its names", "statement": "load_csv_as_dataset gives the Dataset with the given column names in order whose rows are the rows of the file in order, every field turned by the converter of its column; all reading versions give the same.", "quantifier": "all files, names, converters and versions 0 to 3", "why_tests_cant": "versions are tested on one small file; they build the columns in four different ways", "anchors": ["riptable/rt_csv.py: load_csv_as_dataset, _load_rows_to_dict_conv_by_col, _load_rows_to_dict_conv_by_row, _load_rows_to_tagged_rows, _load_rows_to_rows_and_cols"]}
{"id": "C277", "title": "Every reading version treats short and blank lines alike", "statement": "A line with fewer fields than there are columns is refused and a blank line is skipped, whichever version reads the file.", "quantifier": "all files with blank and short lines anywhere, versions 0 to 3", "why_tests_cant": "the short line can be anywhere and have any length", "anchors": ["riptable/rt_csv.py: load_csv_as_dataset"]}
{"id": "C278", "title": "No column of a CSV file is lost", "statement": "The Dataset read from a CSV file has as many columns as there are names, and a converter None leaves texts as they are in every version.", "quantifier": "all names and converters, versions 0 to 3", "why_tests_cant": "needs names that occur twice", "anchors": ["riptable/rt_csv.py: load_csv_as_dataset"]}
{"id": "C279", "title": "A Struct equals itself", "statement": "s.equals(t) is True if t has the same keys in the same order and the same values; NaNs in the same place count as equal.", "quantifier": "all Structs of arrays, numbers, texts and Structs, nested at will", "why_tests_cant": "NaN as number and NaNs with different bits are needed", "anchors": ["riptable/rt_struct.py: Struct.equals"]}
{"id": "C280", "title": "Structs that are equal hold the same", "statement": "If s.equals(t) is True then s and t have the same keys in the same order, arrays of the same kind and the same elements, and the same numbers and texts.", "quantifier": "all pairs of Structs, all checksums", "why_tests_cant": "arrays of different kinds with the same memory are needed", "anchors": ["riptable/rt_struct.py: Struct.equals"]}
{"id": "C281", "title": "Asking whether Structs are equal gives an answer", "statement": "s.equals(t) gives True or False for all Structs s and t; Structs with other keys are not equal.", "quantifier": "all pairs of Structs", "why_tests_cant": "a Struct on one side and a number on the other is needed, and nothing before it may differ", "anchors": ["riptable/rt_struct.py: Struct.equals"]}
{"id": "C282", "title": "A Dataset written as numpy files is read back", "statement": "read_dset_from_np gives the columns that write_dset_to_np was given, under the same names and in the same order.", "quantifier": "all Datasets, all orders in which the file system lists a folder", "why_tests_cant": "the order of a listing is not defined", "anchors": ["riptable/rt_io.py: write_dset_to_np, read_dset_from_np"]}
{"id": "C283", "title": "Columns keep their class through numpy files", "statement": "A Categorical written by write_dset_to_np is read as a Categorical by read_dset_from_np.", "quantifier": "all Datasets", "why_tests_cant": "needs other columns than plain arrays", "anchors": ["riptable/rt_io.py: write_dset_to_np, read_dset_from_np"]}
{"id": "C284", "title": "Stacking Structs joins what stands under each key", "statement": "Struct.hstack / concat_structs gives a Struct with all keys in the order of their first occurrence; under each key stand the arrays or objects of all Structs joined in order; things that cannot be stacked are refused.", "quantifier": "all lists of Structs with any keys and classes", "why_tests_cant": "keys may be missing in some Structs and come in different orders", "anchors": ["riptable/rt_struct.py: Struct.hstack, concat_structs", "riptable/rt_hstack.py: _hstack_struct"]}
{"id": "C285", "title": "Stacking Structs puts the rows of matrices below each other", "statement": "Arrays of two dimensions under a key are stacked by rows, as arrays of one dimension are.", "quantifier": "all arrays of two dimensions", "why_tests_cant": "the branch for two dimensions is never tested", "anchors": ["riptable/rt_hstack.py: _hstack_struct"]}
{"id": "C286", "title": "Taking rows of a matrix by position", "statement": "mbget of an array of two dimensions gives for every position that row, and a row of invalid values for positions that do not exist and for invalid positions.", "quantifier": "all matrices, all lists of positions", "why_tests_cant": "positions are multiplied by the number of columns in 64 bits; only some products leave the range", "anchors": ["riptable/rt_utils.py: mbget, _mbget_2dims"]}
{"id": "C287", "title": "The default of mbget", "statement": "mbget(values, positions, d) gives d for positions that do not exist.", "quantifier": "all arrays of one and two dimensions, all positions and defaults", "why_tests_cant": "the argument is passed on in one branch only", "anchors": ["riptable/rt_utils.py: mbget, _mbget_2dims"]}
{"id": "C288", "title": "str_replace replaces texts", "statement": "str_replace(arr, old, new) has for every text of arr the text of new at the place where old has it, if old has all texts of arr.", "quantifier": "all arrays of texts", "why_tests_cant": "holds for all texts and orders of old", "anchors": ["riptable/rt_utils.py: str_replace"]}
{"id": "C289", "title": "str_replace with texts that are not found", "statement": "str_replace(arr, old, new, missing) has the text missing where old does not have the text.", "quantifier": "all arrays of texts", "why_tests_cant": "there is no test of str_replace", "anchors": ["riptable/rt_utils.py: str_replace"]}
{"id": "C290", "title": "Cells of as_matrix can be translated back", "statement": "as_matrix / dataset_as_matrix give a matrix with one column for every column of the Dataset and column_info: numbers are as in the Dataset; texts and Booleans are the place of the value in the category values, or in the key that was passed, NaN for values the key does not have; of a Categorical the cells are its codes.", "quantifier": "all Datasets with columns of one dimension, all keys", "why_tests_cant": "depends on all values of a column together", "anchors": ["riptable/rt_dataset.py: Dataset.as_matrix, Dataset._normalize_column", "riptable/Utils/conversion_utils.py: dataset_as_matrix, _normalize_column"]}
{"id": "C291", "title": "as_matrix uses the same number for the same value", "statement": "In the matrices of two Datasets the same value of a column of the same name has the same number and different values have different numbers; True is 1 and False is 0; a cell is the place in the category values.", "quantifier": "all pairs of Datasets", "why_tests_cant": "needs two Datasets with different values", "anchors": ["riptable/rt_dataset.py: Dataset.as_matrix, Dataset._normalize_column", "riptable/Utils/conversion_utils.py: dataset_as_matrix, _normalize_column"]}
{"id": "C292", "title": "numpy_array_to_dict keeps every column", "statement": "numpy_array_to_dict and numpy2d_to_dict give a dictionary with every column of the array, in order, under the names given (or the names of the fields, or Var_0, Var_1, ...); a wrong number of names is refused.", "quantifier": "all arrays of one and two dimensions and structured arrays, all lists of names", "why_tests_cant": "names may be the same or be given in several forms", "anchors": ["riptable/Utils/conversion_utils.py: numpy_array_to_dict, numpy2d_to_dict"]}
{"id": "C293", "title": "dset_dict_to_list marks every Dataset with its key", "statement": "dset_dict_to_list(d, name) gives the Datasets of the dictionary in order, each with a column name that has its key in every row; the other columns and other Datasets are as before; keys that are no ASCII texts or bytes and names that are in use are refused.", "quantifier": "all dictionaries of Datasets, all names", "why_tests_cant": "the Datasets may be the same object, names may be names of methods", "anchors": ["riptable/Utils/conversion_utils.py: dset_dict_to_list, append_dataset_dict", "riptable/rt_struct.py: Struct.__setattr__"]}
{"id": "C294", "title": "ismember of Categoricals compares labels", "statement": "ismember with a Categorical on one side or on both (arrays of categories, one key or several) gives for every row the first row of the other side that shows the same label; filtered rows are not found, not even in filtered rows; texts and numbers raise TypeError.", "quantifier": "all pairs of Categoricals or arrays", "why_tests_cant": "categories differ in order and number, categories may have no rows", "anchors": ["riptable/rt_numpy.py: ismember, _possibly_match_categoricals"]}
{"id": "C295", "title": "ismember of Categoricals with mappings compares labels", "statement": "ismember of two Categoricals with mappings (dictionaries or enums) finds the rows that show the same label.", "quantifier": "all pairs of mappings and codes", "why_tests_cant": "mappings that agree on all common codes pass the check", "anchors": ["riptable/rt_numpy.py: ismember, _possibly_match_categoricals"]}
{"id": "C296", "title": "A saved Categorical shows the same after loading", "statement": "A Categorical with categories (one key column or several, any base, ordered or not) that is saved and loaded again shows in every row the labels it showed; base, order, the label of missing values and the name of filtered rows are kept, with several key columns also their names and classes.", "quantifier": "all Categoricals with key columns of one length", "why_tests_cant": "codes may be outside the categories, key columns may have classes of their own", "anchors": ["riptable/rt_categorical.py: Categorical._build_sds_meta_data, _load_from_sds_meta_data, _meta_dict", "riptable/rt_grouping.py: Grouping._build_sds_meta_data, _load_from_sds_meta_data"]}
{"id": "C297", "title": "A saved Categorical with a mapping shows the same after loading", "statement": "A Categorical with a mapping (dictionary or enum) that is saved and loaded again shows in every row the label or the code it showed, and finds the same code for every label.", "quantifier": "all mappings and codes", "why_tests_cant": "two codes may have one label, codes may have none", "anchors": ["riptable/rt_categorical.py: Categorical._build_sds_meta_data", "riptable/rt_grouping.py: GroupingEnum, Grouping._load_from_sds_meta_data"]}
{"id": "C298", "title": "Categoricals that cannot be stored are refused", "statement": "A Categorical whose label of missing values cannot be written as JSON is refused when it is saved; loading refuses files in which an array of the categories is missing and files of a later version.", "quantifier": "all Categoricals and files", "why_tests_cant": "the label may be of any type", "anchors": ["riptable/rt_categorical.py: Categorical._load_from_sds_meta_data, _meta_dict", "riptable/rt_metadata.py: MetaData.string"]}
{"id": "C299", "title": "Merges match the columns that are asked for", "statement": "on, left_on and right_on name the columns of both sides in order: a name is the column of both sides, a tuple (l, r) is a column of each side; on together with left_on or right_on, no names at all, names that are no columns and different numbers of names are refused.", "quantifier": "all values of on, left_on and right_on", "why_tests_cant": "names, tuples, lists of both, None and other values mix", "anchors": ["riptable/rt_merge.py: _extract_on_columns, _create_column_valuesets, _normalize_selected_columns, merge2"]}
{"id": "C300", "title": "Merges compare key columns alike from both sides", "statement": "The check of key columns refuses columns that are not as many arrays of the same classes and warns unless each pair of types is of one kind; the verdict does not depend on which Dataset is left, and a Categorical counts as the list of its key columns.", "quantifier": "all pairs of key columns", "why_tests_cant": "classes, types and numbers of key columns mix", "anchors": ["riptable/rt_merge.py: _verify_join_keys_compat, _require_columns_present"]}
{"id": "C301", "title": "Saving asks before it replaces a file", "statement": "With overwrite=False, an .sds file that exists is replaced only if the user answers yes (y or Y); on n or N nothing is written, other answers are asked again; a folder of that name is never replaced.", "quantifier": "all paths, names, files that exist and answers", "why_tests_cant": "paths may have an extension, a trailing / or a name with /, answers may be anything", "anchors": ["riptable/rt_sds.py: save_sds, _sds_path_single, _sds_save_single, compress_dataset_internal"]}
{"id": "C302", "title": "Saving a nested Struct asks before it writes into a folder", "statement": "With overwrite=False, a Struct with nested containers is written into a path that exists exactly if the first yes or no of the user is a yes.", "quantifier": "all paths, files that exist and answers", "why_tests_cant": "answers may be anything", "anchors": ["riptable/rt_sds.py: save_struct, _sds_path_multi"]}
{"id": "C303", "title": "Data is saved where the path says", "statement": "Without a name, a Dataset, an array and a Struct without nested containers are saved to the path, with the extension .sds unless it is there; with a name, to that name in the folder.", "quantifier": "all paths and names", "why_tests_cant": "paths may have an extension in upper case or a trailing /", "anchors": ["riptable/rt_sds.py: save_sds, _sds_path_single, save_struct, _write_to_sds, compress_dataset_internal"]}
{"id": "C304", "title": "Arguments of string functions can be given by position or keyword", "statement": "regex_match, regex_replace and extract of the string functions accept every call that Python accepts for their documented parameters, by position or by keyword, and every parameter gets the value it was given or its default.", "quantifier": "all calls: any number of positional arguments and keywords, any values", "why_tests_cant": "a call mixes positions and keywords in any way", "anchors": ["riptable/rt_str.py: _handle_apply_unique, FAString.regex_match, regex_replace, extract"]}
{"id": "C305", "title": "Searching and replacing patterns goes text by text", "statement": "regex_match says for every text of the array whether the pattern is found in it, and regex_replace replaces in every text; apply_unique changes neither results nor exceptions.", "quantifier": "all arrays of texts (bytes or unicode), patterns and replacements", "why_tests_cant": "results must be independent of repetitions in the array", "anchors": ["riptable/rt_str.py: FAString.regex_match, regex_replace, _handle_apply_unique"]}
{"id": "C306", "title": "extract gives a column for every group", "statement": "extract gives for every group of the pattern a column with, in every row, what the group matched, and fillna where the pattern was not found; columns have the names asked for, or the names of the groups or their numbers; a pattern without groups gives what it matched; apply_unique does not matter.", "quantifier": "all arrays of texts, patterns with any groups, names and fillna", "why_tests_cant": "groups may be named, optional or missing", "anchors": ["riptable/rt_str.py: FAString.extract"]}
{"id": "C307", "title": "label_filter keeps the rows whose label matches", "statement": "label_filter keeps a row exactly if one of its label columns equals one of the items, holds one of the texts of like, or matches the regular expression; more than one kind of condition is refused.", "quantifier": "all label columns, items, texts and patterns", "why_tests_cant": "several label columns and conditions combine", "anchors": ["riptable/rt_struct.py: Struct.label_filter", "riptable/rt_numpy.py: mask_ori"]}
{"id": "C308", "title": "Aligned Categoricals share their categories", "statement": "Categorical.align returns Categoricals that all have the same different categories and show row by row what they showed; so rows of two of them have the same code exactly if they show the same label or are both filtered.", "quantifier": "all lists of Categoricals, of any categories and base index", "why_tests_cant": "categories may overlap in any way", "anchors": ["riptable/rt_categorical.py: Categorical.align, Categorical.categories_equal", "riptable/rt_hstack.py: _hstack_categorical"]}
{"id": "C309", "title": "Normalised keys are equal for equal rows", "statement": "After normalize_keys rows of the two sides have equal values in all arrays exactly if they show the same in all key columns, also if a key is a Categorical on one side or both.", "quantifier": "all lists of key columns, arrays or Categoricals", "why_tests_cant": "codes of two Categoricals number their own categories", "anchors": ["riptable/rt_utils.py: normalize_keys, alignmk", "riptable/rt_categorical.py: Categorical.align"]}
{"id": "C310", "title": "Parts of a pandas Categorical show the same rows", "statement": "The codes and labels that categorical_convert makes of a pandas Categorical show in every row the category it had, and missing values can be told apart from all categories.", "quantifier": "all codes and categories of pandas Categoricals, with any base index", "why_tests_cant": "categories may be any texts or numbers, rows may be missing", "anchors": ["riptable/rt_categorical.py: categorical_convert, make_string_array"]}
{"id": "C311", "title": "key_search lists the nested keys that match", "statement": "key_search gives, for a Struct with Structs and Datasets nested in it, the paths of exactly those keys that the pattern matches, each once; without recursion only the keys of the Struct itself; case_sensitive says whether letter case counts.", "quantifier": "all nested Structs, patterns and keys", "why_tests_cant": "nesting is of any depth and any keys may occur at several places", "anchors": ["riptable/rt_struct.py: Struct.key_search"]}
{"id": "C312", "title": "make_categoricals converts arrays of texts at every depth", "statement": "make_categoricals turns every array of texts, at every depth, or those of the columns asked for, into a Categorical that shows the same texts, changes nothing else, and changes nothing at all if it raises because of a missing column.", "quantifier": "all nested Structs and lists of columns", "why_tests_cant": "nesting is of any depth; the list may have missing names at any place", "anchors": ["riptable/rt_struct.py: Struct.make_categoricals"]}
{"id": "C313", "title": "make_struct_from_categories has the categories of all Categoricals", "statement": "make_struct_from_categories returns a Struct with exactly the categories of the Categoricals whose names begin with the prefix, under their names with or without the prefix, and raises if a Categorical has several key columns.", "quantifier": "all Structs, prefixes and choices to keep the prefix", "why_tests_cant": "names and prefixes combine in any way", "anchors": ["riptable/rt_struct.py: Struct.make_struct_from_categories, Struct._init_from_dict, Struct.col_set_value"]}
{"id": "C314", "title": "A table shows its first and last rows", "statement": "A Dataset shown as text shows all its rows if they fit the limits for head and tail or all are asked for, otherwise exactly the first and last ones with a line of dots between; every line holds in all columns the cells of one row, with its number on the left; a sorted view shows them in sort order.", "quantifier": "all Datasets, limits and sort orders", "why_tests_cant": "numbers of rows are at, below or above the limits", "anchors": ["riptable/rt_display.py: DisplayTable.build_row_mask, build_column, build_result_table_new"]}
{"id": "C315", "title": "A table shows its first and last columns", "statement": "A Dataset shown as text shows as many columns as fit in the width of the console, from both ends, with a column of dots exactly if some are left out; no line is wider than the console, and showing a Dataset never raises.", "quantifier": "all Datasets, widths of columns and consoles, sort columns", "why_tests_cant": "widths combine in any way", "anchors": ["riptable/rt_display.py: DisplayTable.fit_max_columns, build_result_table_new"]}
{"id": "C316", "title": "Cells stand below their headers", "statement": "In a Dataset shown as text all lines have the same length, every cell stands below the header of its column, and footers below the cells.", "quantifier": "all Datasets with any texts and alignments", "why_tests_cant": "widths of headers, cells and footers combine in any way", "anchors": ["riptable/rt_display.py: DisplayColumn, DisplayConsoleTable.build_table, DisplayTable.build_final_ends"]}
{"id": "C317", "title": "A dot in the first key column repeats the key above", "statement": "In a result with several key columns the first one shows a dot exactly in the lines whose key is the one of the line above.", "quantifier": "all lists of keys", "why_tests_cant": "keys repeat in any way", "anchors": ["riptable/rt_display.py: DisplayTable.fix_repeated_keys"]}
{"id": "C318", "title": "Headers of several lines stay above their columns", "statement": "If columns of a Multiset are left out, every column that is shown still has its own headers above it.", "quantifier": "all headers and numbers of columns shown", "why_tests_cant": "spans are cut at any place", "anchors": ["riptable/rt_display.py: DisplayTable.fix_multiline_headers"]}
{"id": "C319", "title": "All columns are shown if they are asked for", "statement": "If all columns are asked for, tables below each other show every column once, in order, each table as wide as the console allows; a sorted view is shown too.", "quantifier": "all Datasets and widths", "why_tests_cant": "widths combine in any way", "anchors": ["riptable/rt_display.py: DisplayTable.all_columns_console"]}
{"id": "C320", "title": "A transposed table shows the same rows", "statement": "The transposed view of a Dataset shows as many rows as the option for transposed tables says, in the order of the view, each below its number.", "quantifier": "all Datasets, options and sort orders", "why_tests_cant": "numbers of rows are below and above the option", "anchors": ["riptable/rt_display.py: DisplayTable.build_transposed_columns, build_final_ends"]}
{"id": "C321", "title": "Every column of a Dataset has its place in the table", "statement": "What is shown of a Dataset has labels first, then sort columns, other columns and summary columns, every column exactly once, with its footers below it.", "quantifier": "all columns, labels, sort columns, summary columns and footers", "why_tests_cant": "sets of names overlap in any way", "anchors": ["riptable/rt_dataset.py: Dataset._prepare_display_data", "riptable/rt_display.py: DisplayTable.build_result_table_new"]}
{"id": "C322", "title": "A function with several results per group", "statement": "apply_reduce with a function that returns several values for a group gives a matrix for every column: one row for each group, holding the function's result for the values of this group.", "quantifier": "all keys, columns, numbers of columns and functions", "why_tests_cant": "groups without rows and several columns combine in any way", "anchors": ["riptable/rt_grouping.py: Grouping.apply_helper", "riptable/rt_groupbyops.py: GroupByOps.apply_reduce"]}
{"id": "C323", "title": "Named outputs hold one entry for each group", "statement": "apply_reduce with a tuple of arrays and a dict of dtypes calls the function once for each group, also for those without rows, with the values of the group's rows; the entry of each named output for a group is what the function wrote for this group.", "quantifier": "all keys, arrays, numbers of outputs and functions that write all outputs", "why_tests_cant": "groups and filters combine in any way", "anchors": ["riptable/rt_grouping.py: Grouping.apply_helper"]}
{"id": "C324", "title": "Named outputs hold one entry for each row", "statement": "apply_nonreduce with a tuple of arrays and a dict of dtypes gives every row the entry the function wrote at the row's place in its group; a row that belongs to no group gets an invalid value or what the function gives for such rows.", "quantifier": "all keys, arrays, filters and functions", "why_tests_cant": "filters and groups combine in any way", "anchors": ["riptable/rt_grouping.py: Grouping.apply_helper"]}
{"id": "C325", "title": "Named outputs work for arrays and datasets alike", "statement": "With a dict of dtypes one array gives the same as a tuple that holds it; on a grouped dataset every column has its own outputs; and an entry no function wrote is invalid.", "quantifier": "all keys, arrays and datasets", "why_tests_cant": "input may be passed in several ways", "anchors": ["riptable/rt_grouping.py: Grouping.apply_helper", "riptable/rt_groupbyops.py: GroupByOps._prepare_gb_data"]}
{"id": "C326", "title": "A path with the extension is loaded from what it stands for", "statement": "load_sds of a path that ends in .sds, in capitals or not, loads the file of that name, else the folder of that name, else the folder whose name lacks the extension; when none is there or it cannot be read, the call raises. Nothing is loaded when there is neither a file nor a folder of the name with or without the extension.", "quantifier": "all paths, disks and readers", "why_tests_cant": "files and folders with and without the extension combine in any way", "anchors": ["riptable/rt_sds.py: _load_sds_internal, _load_sds, sds_endswith"]}
{"id": "C327", "title": "What was saved to a path is loaded from the same path", "statement": "After a Dataset was saved to a path, with or without the extension, load_sds of the same path gives this Dataset; a path without extension that stands for something that cannot be read raises.", "quantifier": "all paths, disks and readers", "why_tests_cant": "what else has the same name is up to the disk", "anchors": ["riptable/rt_sds.py: _load_sds_internal, _load_sds"]}
{"id": "C328", "title": "A list of paths gives one result for each path", "statement": "load_sds of a list of files and directories returns a list with one result for each path, in the order of the paths, each loaded with what was asked for.", "quantifier": "all lists of paths, disks, readers and folders asked for", "why_tests_cant": "files, directories and missing paths come in any order", "anchors": ["riptable/rt_sds.py: _sds_dir_from_file_list, _sds_load_from_list"]}
{"id": "C329", "title": "mustexist refuses lists with missing paths", "statement": "load_sds of a list, stacked or not, with mustexist raises when no file and no directory is found for one of the paths.", "quantifier": "all lists of paths and disks", "why_tests_cant": "the missing path can be anywhere in the list", "anchors": ["riptable/rt_sds.py: _sds_dir_from_file_list"]}
{"id": "C330", "title": "Files are stacked as asked for", "statement": "load_sds(files, stack=True) stacks the files that are found in the order given with the columns, filter and sections asked for; with folders one stack for each of them, under its name; folders and files together, folders without names, and lists of which nothing is found are refused.", "quantifier": "all lists of paths, disks and options", "why_tests_cant": "options, folders and missing files combine in any way", "anchors": ["riptable/rt_sds.py: _load_sds_internal, _stack_sds_files"]}
{"id": "C331", "title": "Directories are stacked name by name", "statement": "load_sds(directories, stack=True) makes for each name one stack of the file of that name in each directory, in the order of the directories, with the columns, filter and demand for existence that were asked for.", "quantifier": "all lists of directories, names and options", "why_tests_cant": "names with and without the extension and options combine in any way", "anchors": ["riptable/rt_sds.py: _stack_sds_dirs, _load_sds_internal"]}
{"id": "C332", "title": "Group keys do not depend on earlier requests", "statement": "Whatever was asked of the chain of group keys before, asking for the keys gives the unique keys in the order now asked for, without the bin of filtered rows; asking for them with the bin puts it in front.", "quantifier": "all keys, histories of requests and sorts", "why_tests_cant": "the chain keeps state, and histories combine sorts, bins and copies in any way", "anchors": ["riptable/rt_groupbykeys.py: GroupByKeys.keys, gbkeys, gbkeys_filtered, _insert_filter_bin, _trim_keys, unsort"]}
{"id": "C333", "title": "Group values stand beside their keys after any requests", "statement": "Whatever was asked of the chain of group keys before, the values of the groups, put in the order the chain says, stand beside their keys.", "quantifier": "all keys, values, histories of requests and sorts", "why_tests_cant": "whether values are sorted is decided by flags that histories set", "anchors": ["riptable/rt_groupbykeys.py: GroupByKeys.sort_gb_data, isortrows, keys"]}
{"id": "C334", "title": "A copy of a chain of group keys gives the same keys", "statement": "The copy of a chain of group keys gives the same keys as the original.", "quantifier": "all chains and histories of requests before the copy", "why_tests_cant": "what the copy takes over depends on the history", "anchors": ["riptable/rt_groupbykeys.py: GroupByKeys.copy"]}
{"id": "C335", "title": "Places and bins of group keys undo each other", "statement": "For different keys get_index_from_bin gives the place of the key, -1 when it is not there; get_bin gives the key at a place and raises elsewhere; so each undoes the other.", "quantifier": "all lists of different keys, places and bins", "why_tests_cant": "any key can be at any place", "anchors": ["riptable/rt_groupbykeys.py: GroupByKeys.get_index_from_bin, get_bin_from_index"]}
{"id": "C336", "title": "A list of places gives a list of bins", "statement": "get_bin of a list of places gives the list of the bins at these places.", "quantifier": "all lists of keys and of places", "why_tests_cant": "lists of any length", "anchors": ["riptable/rt_groupbykeys.py: GroupByKeys.get_bin"]}
{"id": "C337", "title": "The report of apply_schema is empty exactly when the object fits", "statement": "apply_schema gives an empty dictionary exactly when every type the schema names is the type of the object under that path and, wherever contents are given, the names are the same; and everything it reports is a deviation.", "quantifier": "all trees of Structs and arrays and all schemas", "why_tests_cant": "deviations can be at any depth and in any combination", "anchors": ["riptable/rt_meta.py: apply_schema, _type_str"]}
{"id": "C338", "title": "apply_schema reports every deviation", "statement": "Each wrong type, each extra and each missing element anywhere in the tree is in the report under its path.", "quantifier": "all trees of Structs and arrays and all schemas", "why_tests_cant": "any number of deviations at any depth", "anchors": ["riptable/rt_meta.py: apply_schema"]}
{"id": "C339", "title": "apply_schema describes every object", "statement": "After apply_schema each object the schema speaks of has its description, and others have none from it.", "quantifier": "all trees and schemas", "why_tests_cant": "the same array can stand anywhere in the tree", "anchors": ["riptable/rt_meta.py: apply_schema, info"]}
{"id": "C340", "title": "total_sizes ends for every graph of Structs", "statement": "total_sizes of a Struct ends whatever Structs hold whatever others, also when they hold each other.", "quantifier": "all graphs of Structs", "why_tests_cant": "graphs of any size with any cycles", "anchors": ["riptable/rt_struct.py: Struct.total_sizes"]}
{"id": "C341", "title": "The logical size is at least the physical size", "statement": "The logical size total_sizes gives is at least as large as the physical size.", "quantifier": "all graphs of Structs and all items", "why_tests_cant": "any pattern of aliases", "anchors": ["riptable/rt_struct.py: Struct.total_sizes"]}
{"id": "C342", "title": "The physical size counts each memory once", "statement": "The physical size is the sum of the bytes of the different memories under the Struct, each counted once, and of its integers.", "quantifier": "all graphs of Structs, arrays, views and Categoricals", "why_tests_cant": "any pattern of aliases at any depth", "anchors": ["riptable/rt_struct.py: Struct.total_sizes", "riptable/rt_categorical.py: Categorical._total_size"]}
{"id": "C343", "title": "The logical size counts aliases each time", "statement": "The logical size is the size the Struct would have if every alias were replaced by a copy.", "quantifier": "all graphs of Structs and all items", "why_tests_cant": "any pattern of aliases at any depth", "anchors": ["riptable/rt_struct.py: Struct.total_sizes"]}
{"id": "C344", "title": "A Dataset made of a dictionary has its entries as columns", "statement": "Dataset(dictionary) has a column for every entry, in order, under its name and with its rows, or raises; it is taken exactly when the names are admissible and all entries are arrays, lists or single values with the same number of rows.", "quantifier": "all dictionaries", "why_tests_cant": "any number of entries with any names and lengths", "anchors": ["riptable/rt_dataset.py: Dataset._init_from_dict, _possibly_convert, _check_add_dimensions", "riptable/rt_struct.py: Struct._validate_names, col_set_value, is_valid_colname"]}
{"id": "C345", "title": "All columns of a Dataset made of a dictionary have its number of rows", "statement": "Whatever dictionary a Dataset is made of, all its columns have as many rows as it reports.", "quantifier": "all dictionaries, also with names that are changed", "why_tests_cant": "columns of any lengths can replace each other under changed names", "anchors": ["riptable/rt_dataset.py: Dataset._init_from_dict, _check_add_dimensions"]}
{"id": "C346", "title": "Making a Dataset is the same as assigning its columns", "statement": "Dataset(dictionary) gives the same Dataset as assigning the entries one after the other to an empty one, and takes the same entries.", "quantifier": "all dictionaries", "why_tests_cant": "entries of any kinds and lengths in any order", "anchors": ["riptable/rt_dataset.py: Dataset._init_from_dict, _possibly_convert, _check_addtype"]}
{"id": "C347", "title": "Matlab indices become Categoricals in place", "statement": "make_matlab_categoricals with the prefix kept turns every column of indices whose texts are given (under its name without the prefix) into a Categorical of these indices and texts, under the same name and in the same place; all other columns are as before; doing it again changes nothing. It is supposed that no name with the prefix is an attribute of the class and that the columns found are indices or Categoricals.", "quantifier": "all Structs, all prefixes, all arrays of texts", "why_tests_cant": "any number of columns with any names", "anchors": ["riptable/rt_struct.py: Struct.make_matlab_categoricals, col_set_value"]}
{"id": "C348", "title": "Matlab indices become Categoricals under the names of their texts", "statement": "make_matlab_categoricals with the prefix dropped turns every column of indices whose texts are given into a Categorical in the same place under the name of the texts; a column that had this name goes; all others are as before, in order. It is supposed that no name of texts is the prefix with another, and that these names are valid.", "quantifier": "all Structs, all prefixes, all arrays of texts", "why_tests_cant": "any number of columns with any names, also ones that are taken", "anchors": ["riptable/rt_struct.py: Struct.make_matlab_categoricals, col_remove, col_rename, col_set_value", "riptable/rt_itemcontainer.py: ItemContainer.item_rename"]}
{"id": "C349", "title": "All matlab indices are converted whatever they are called", "statement": "make_matlab_categoricals converts every column of indices whose texts are given and changes no other, whatever the names and the prefix.", "quantifier": "all Structs, all prefixes, all arrays of texts", "why_tests_cant": "names can be prefixes, methods and columns at the same time", "anchors": ["riptable/rt_struct.py: Struct.make_matlab_categoricals"]}
{"id": "C350", "title": "Texts from matlab lose exactly the spaces at their end", "statement": "The categories are the texts without the spaces at their end: nothing else is taken away and no space is left there.", "quantifier": "all texts", "why_tests_cant": "texts of any length with spaces anywhere", "anchors": ["riptable/rt_struct.py: Struct.make_matlab_categoricals"]}
{"id": "C351", "title": "Bad rows and columns are left out of the totals of a cross table", "statement": "A calculation of an Accum2 whose totals come from the cells (sum, nanmin, ...) with badrows and badcols: the corner is the aggregate of all shown values not in a bad row or column; the total of a row that is not bad is over its columns that are not bad, and likewise for columns; also when labels are sorted for display and when filtered rows are shown.", "quantifier": "all axes, data, bad rows and bad columns", "why_tests_cant": "any number of labels, any display order, any subset of bad ones", "anchors": ["riptable/rt_accum2.py: Accum2._calc_badslots, _calc_onepass, _apply_2d_operation"]}
{"id": "C352", "title": "The total of a bad row leaves out the bad columns", "statement": "The total of a row of a cross table that is itself bad is over the columns that are not bad, whatever function is calculated, and likewise for columns.", "quantifier": "all axes, data, bad rows and bad columns", "why_tests_cant": "needs bad rows and bad columns together, for each kind of function", "anchors": ["riptable/rt_accum2.py: Accum2._calc_onepass, _calc_multipass"]}
{"id": "C353", "title": "Bad rows and columns are left out of totals computed from the data", "statement": "A calculation whose totals are computed from the data (mean, median, ...) with badrows and badcols: the total of every row is over the columns that are not bad, that of every column over the rows that are not bad, the corner over both.", "quantifier": "all axes, data, bad rows and bad columns", "why_tests_cant": "any number of labels, any subset of bad ones, any filter", "anchors": ["riptable/rt_accum2.py: Accum2._calc_badslots, _calc_multipass, _accum1_pass"]}
{"id": "C354", "title": "Bad rows can be given by label or by number", "statement": "The totals are the same whether bad rows are given by their labels or by their numbers, and what is not there raises.", "quantifier": "all axes, data, labels and numbers", "why_tests_cant": "any lists of labels and numbers", "anchors": ["riptable/rt_accum2.py: Accum2._calc_badslots"]}
{"id": "C355", "title": "A calculation leaves the given bad rows as they are", "statement": "Calculating a cross table for any number of data columns leaves out and notes the bad rows given, in each of the results, and does not change the argument.", "quantifier": "all numbers of data columns, all lists and arrays of bad rows", "why_tests_cant": "the error only adds up over several columns or calls", "anchors": ["riptable/rt_accum2.py: Accum2._calc_badslots, _calc_onepass, _stack_dataset, _finish_calculate_all"]}
{"id": "C356", "title": "No array of a dictionary in an HDF5 file is lost", "statement": "load_h5 of a file with a dictionary of arrays: every array is a column of the result, in the order of the file, under a name that is not empty.", "quantifier": "all dictionaries of arrays with all names", "why_tests_cant": "every set of names, including names that differ only by leading underscores, keywords and names of attributes", "anchors": ["riptable/rt_utils.py: h5io_to_struct, _possibly_escape_colname"]}
{"id": "C357", "title": "Names of columns loaded from HDF5 files follow one rule", "statement": "A column loaded from a dictionary in an HDF5 file has its name in the file without leading underscores; if this is a Python keyword, with the fewest underscores at its end, at least one, that make it different from every name in the file; if it is the name of an attribute of Dataset, capitalized. Finding the name always ends.", "quantifier": "all names and all sets of names in the file", "why_tests_cant": "the search for a free name is a loop without bound", "anchors": ["riptable/rt_utils.py: _possibly_escape_colname"]}
{"id": "C358", "title": "Blocks of columns in an HDF5 file become columns", "statement": "load_h5(fixblocks=True): for every item whose name ends in _items and the matrix of the same name ending in _values, the result has for each name in the first the column of the matrix at its place, and nothing else; it raises only if an item ending in _items has no such matrix.", "quantifier": "all workspaces with any number of blocks of any size", "why_tests_cant": "any number of blocks, names and rows", "anchors": ["riptable/rt_utils.py: load_h5"]}
{"id": "C359", "title": "drop_short keeps exactly the longest columns", "statement": "load_h5(drop_short=True) keeps exactly the columns that are at least as long as every other column, in order, so that all have the same number of rows.", "quantifier": "all workspaces of columns of any lengths", "why_tests_cant": "any number of columns and lengths", "anchors": ["riptable/rt_utils.py: load_h5"]}
{"id": "C360", "title": "Record arrays have the rows and columns of the Dataset", "statement": "as_recordarray of a Dataset with columns has a record for every row with a field for every column in order, of the type in the documentation (datetime64[ns] for DateTimeNano; with allow_conversions datetime64[D] for Date, timedelta64[D] for DateSpan, timedelta64[ns] for TimeSpan), whose value is that of this row of the column if it is valid.", "quantifier": "all Datasets with at least one column, with and without conversions", "why_tests_cant": "any number of rows and columns and all values", "anchors": ["riptable/rt_dataset.py: Dataset.as_recordarray"]}
{"id": "C361", "title": "Invalid times in record arrays are NaT", "statement": "Where a DateTimeNano, Date or DateSpan column is invalid, as_recordarray(allow_conversions=True) has NaT, and nowhere else.", "quantifier": "all times, days and spans of days", "why_tests_cant": "all values, in particular every way to be invalid", "anchors": ["riptable/rt_dataset.py: Dataset.as_recordarray"]}
{"id": "C362", "title": "TimeSpans in record arrays are truncated to nanoseconds", "statement": "as_recordarray(allow_conversions=True) of a TimeSpan column: every span is cut towards zero to whole nanoseconds, and is NaT exactly where it is NaN.", "quantifier": "all columns of spans that fit into 64 bits", "why_tests_cant": "all fractions of both signs", "anchors": ["riptable/rt_dataset.py: Dataset.as_recordarray"]}
{"id": "C363", "title": "bitcount of a number agrees with bitcount of an array", "statement": "bitcount of a Python or numpy integer or bool is the number of bits set in it, as in an array that has this one element.", "quantifier": "all integers that fit into the array and bools", "why_tests_cant": "all integers of both signs and all sizes of array elements", "anchors": ["riptable/rt_numpy.py: bitcount"]}
{"id": "C364", "title": "col_pop takes exactly the asked columns out", "statement": "col_pop of a name, of a place (from the end if negative), of a list of different names or of : on a Struct that is not locked returns the value of this column, or a Struct of the asked columns in the order asked for, and afterwards the Struct has exactly the other columns in their order with their values.", "quantifier": "all unlocked Structs, all columns whose names are not methods or properties of the class", "why_tests_cant": "any number of columns and any selection in any order", "anchors": ["riptable/rt_struct.py: Struct.col_pop", "riptable/rt_struct.py: Struct._extract_indexing"]}
{"id": "C365", "title": "A col_pop that raises changes nothing", "statement": "col_pop raises for unknown names, repeated names, empty lists, places outside the Struct and locked Structs, and whenever it raises the Struct is as before.", "quantifier": "all Structs and all arguments", "why_tests_cant": "every way to fail, for lists that name existing columns before the failing one", "anchors": ["riptable/rt_struct.py: Struct.col_pop"]}
{"id": "C366", "title": "col_pop accepts what [] accepts", "statement": "The argument of col_pop is as for []: whenever st[arg] returns something, st.col_pop(arg) returns the same.", "quantifier": "all unlocked Structs and all names, places, lists of names, lists of places and masks", "why_tests_cant": "all selections of columns in all forms", "anchors": ["riptable/rt_struct.py: Struct.col_pop", "riptable/rt_struct.py: Struct._mask_get_item", "riptable/rt_struct.py: Struct.__getitem__"]}
{"id": "C367", "title": "Filtered reductions of TimeSpans count the kept rows", "statement": "sum, mean, var, min, max, median and their nan versions of a TimeSpan with filter=mask give the TimeSpan of the reduction over the rows where the mask is True, as for FastArrays.", "quantifier": "all TimeSpans, masks and reductions", "why_tests_cant": "all values, lengths and masks", "anchors": ["riptable/rt_datetime.py: TimeSpan._reduce_func_builder"]}
{"id": "C368", "title": "Reductions of TimeSpans do not depend on the unit", "statement": "A reduction of a TimeSpan is a TimeSpan that does not depend on the unit in which the spans are counted: counting them in another unit multiplies the result by the same factor.", "quantifier": "all TimeSpans, positive factors and reductions", "why_tests_cant": "all values and all factors", "anchors": ["riptable/rt_datetime.py: TimeSpan._reduce_func_builder"]}
{"id": "C369", "title": "fill_invalid leaves only invalid elements", "statement": "Whenever x.fill_invalid returns, in place: x has as many elements as before, of its class and type, and all of them are invalid for isnan; with inplace=False x is as before and the result has the class of x, the asked length, only invalid elements, and for plain arrays and Categoricals the asked type. Without arguments it returns for numbers, strings, dates, times, spans and Categoricals of base index 1. (There are no invalid bools.)", "quantifier": "all arrays of numbers other than bools, strings, dates, times, spans and Categoricals, all lengths and types asked for", "why_tests_cant": "all lengths, classes and types", "anchors": ["riptable/rt_fastarray.py: FastArray.fill_invalid", "riptable/rt_datetime.py: Date.fill_invalid, DateSpan.fill_invalid, DateTimeNano.fill_invalid, TimeSpan.fill_invalid", "riptable/rt_categorical.py: Categorical.fill_invalid"]}
{"id": "C370", "title": "A fill_invalid that raises changes nothing", "statement": "fill_invalid in place with another number of rows raises for every class, and whenever fill_invalid raises the array is as before.", "quantifier": "all arrays and arguments", "why_tests_cant": "all lengths, classes and ways to fail", "anchors": ["riptable/rt_fastarray.py: FastArray.fill_invalid", "riptable/rt_categorical.py: Categorical.fill_invalid"]}
{"id": "C371", "title": "fill_invalid in place refuses another type", "statement": "fill_invalid in place with a dtype other than that of the array raises.", "quantifier": "all arrays and types", "why_tests_cant": "all classes and types", "anchors": ["riptable/rt_fastarray.py: FastArray.fill_invalid", "riptable/rt_datetime.py: Date.fill_invalid, DateSpan.fill_invalid, DateTimeNano.fill_invalid, TimeSpan.fill_invalid"]}
{"id": "C372", "title": "Pickled arrays come back with their content", "statement": "pickle.loads(pickle.dumps(a)) has the class, the data type and the elements of a; a Date, DateSpan, TimeSpan or DateTimeNano also has its display length, and a DateTimeNano its zone and shows the same times. Arrays of unicode must have a row. The compressor gives back what it was given.", "quantifier": "all FastArrays of numbers, bytes or unicode and all arrays of dates, times and spans, any length and zones", "why_tests_cant": "all lengths, classes, values and zones", "anchors": ["riptable/rt_fastarray.py: FastArray.__reduce__, FA_FROM_UINT8, FastArray.__new__", "riptable/rt_datetime.py: Date._load_from_sds_meta_data, DateSpan._load_from_sds_meta_data, DateTimeNano._load_from_sds_meta_data, TimeSpan._load_from_sds_meta_data"]}
{"id": "C373", "title": "Pickled arrays come back in every respect", "statement": "pickle.loads(pickle.dumps(a)) also has the name of a, the zone it was made from and no attributes a did not have, and arrays of unicode stay unicode without rows and without compression.", "quantifier": "all FastArrays and all arrays of dates, times and spans, compressed or not", "why_tests_cant": "all lengths, classes, names and zones", "anchors": ["riptable/rt_fastarray.py: FastArray.__reduce__, FastArray.__new__", "riptable/rt_datetime.py: Date._load_from_sds_meta_data, DateTimeNano._load_from_sds_meta_data"]}
{"id": "C374", "title": "lm gives the least squares", "statement": "Whenever lm(X, Y) returns, with or without intercept, no other coefficients have a smaller sum of squared errors over the rows of X and Y without NaN. (np.linalg.solve returns solutions; arithmetic is exact.)", "quantifier": "all matrices of any size with NaN, all other coefficients", "why_tests_cant": "all sizes, values and all competing coefficients", "anchors": ["riptable/rt_stats.py: lm"]}
{"id": "C375", "title": "r2 is between 0 and 1 and does not depend on units", "statement": "For two columns that are not constant r2(X, Y) is between 0 and 1; it is the same as r2(Y, X), and does not change if X is multiplied by a number other than 0 and a number is added.", "quantifier": "all columns without NaN, all factors and summands", "why_tests_cant": "all lengths and values", "anchors": ["riptable/rt_stats.py: r2"]}
{"id": "C376", "title": "winsorize puts every value between the bounds", "statement": "For lb <= ub winsorize(Y, lb, ub) has the length of Y, NaN where Y has, values within the bounds where they are, lb for smaller and ub for larger ones.", "quantifier": "all columns and bounds", "why_tests_cant": "all lengths and values", "anchors": ["riptable/rt_stats.py: winsorize"]}
{"id": "C377", "title": "mae is the mean distance", "statement": "mae(X, Y) is the mean of the distances of X and Y over the rows without NaN, NaN if there are none; it is 0 if and only if the columns agree in these rows.", "quantifier": "all pairs of columns with NaN", "why_tests_cant": "all lengths and values", "anchors": ["riptable/rt_stats.py: mae"]}
{"id": "C378", "title": "class_error is the part of wrong rows", "statement": "class_error(X, Y) is the part of the rows in which the rounded labels differ.", "quantifier": "all pairs of columns without NaN", "why_tests_cant": "all lengths and labels", "anchors": ["riptable/rt_stats.py: class_error"]}
{"id": "C379", "title": "lm prints the R2 of its fit", "statement": "The R2 that lm prints is the squared correlation of the fitted and the true values, as r2 gives it.", "quantifier": "all fits", "why_tests_cant": "all values", "anchors": ["riptable/rt_stats.py: lm"]}
{"id": "C380", "title": "statx describes the finite numbers", "statement": "min, max and Mean of statx(X) are those of the finite numbers in X, NaN if there are none.", "quantifier": "all arrays of numbers, NaN and infinities", "why_tests_cant": "all lengths and values", "anchors": ["riptable/rt_stats.py: statx"]}
{"id": "C381", "title": "statx counts what it describes", "statement": "Count in statx(X) is the number of elements, NaN_Count that of NaN, and their difference is the number of values the other rows describe.", "quantifier": "all arrays of numbers, NaN and infinities", "why_tests_cant": "all lengths and values", "anchors": ["riptable/rt_stats.py: statx"]}
{"id": "C382", "title": "A Date from matlab is the day meant", "statement": "Date(arr, from_matlab=True) has the length of arr; the number of a day in matlab (1 is 1 January of the year 0), with any time of the day, becomes this day, and its year, month and day are those of the calendar from 1970 to 2099; NaN becomes an invalid date.", "quantifier": "all arrays of numbers and NaN, all days and times of the day", "why_tests_cant": "all lengths, days of all years and fractions", "anchors": ["riptable/rt_datetime.py: Date._convert_matlab_days, MATLAB_EPOCH_DATENUM"]}
{"id": "C383", "title": "A DateTimeNano from matlab is when the clocks show it", "statement": "DateTimeNano(arr, from_matlab=True, from_tz=z) is the instant at which the clocks in z show the day and time of matlab, the first one if there are two (not for midnight of 1 January 1970, nor for the start of daylight saving time in Dublin), and shown in z it is this day and time; NaN is invalid. (Exact arithmetic.)", "quantifier": "all arrays, all supported time zones, all instants", "why_tests_cant": "all instants and zones", "anchors": ["riptable/rt_datetime.py: DateTimeNano._convert_matlab_days", "riptable/rt_timezone.py: TimeZone.to_utc"]}
{"id": "C384", "title": "No day of matlab becomes invalid", "statement": "A day from 1970 on in matlab becomes a valid Date, and a valid DateTimeNano in UTC.", "quantifier": "all days from 1970 and times of the day", "why_tests_cant": "all days", "anchors": ["riptable/rt_datetime.py: Date._convert_matlab_days, DateTimeNano._convert_matlab_days"]}
{"id": "C385", "title": "outliers gives the extreme values and whose they are", "statement": "ds.outliers(col_keep), for a column col_keep not called Values, Pos or Names, has in Min and Max one row for each other column, in order: its name, its least (largest) number, the row it is in, and what col_keep holds in that row; a column of texts has NaN, the row -1 and the default; a missing col_keep raises.", "quantifier": "all datasets of numbers with NaN and texts, all columns to keep", "why_tests_cant": "all datasets", "anchors": ["riptable/rt_dataset.py: Dataset.outliers, Dataset._apply_outlier"]}
{"id": "C386", "title": "outliers keeps the column under any name", "statement": "ds.outliers(col_keep) has the extreme values, their rows, the names and what is kept, whatever the column to keep is called.", "quantifier": "all names of columns", "why_tests_cant": "all names and datasets", "anchors": ["riptable/rt_dataset.py: Dataset.outliers, Dataset._apply_outlier"]}
{"id": "C387", "title": "grpFillForward and grpFillBackward fill within groups", "statement": "After grpFillForward (grpFillBackward) every row of a group has the last value of its group up to it (the first value from it on), NaN if there is none.", "quantifier": "all columns with NaN, all groups of rows, whatever was in memory", "why_tests_cant": "all lengths and interleavings of groups", "anchors": ["riptable/rt_groupbynumba.py: GroupbyNumba.grpFillForward, grpFillBackward, _numbaFillForward, _numbaFillBackward"]}
{"id": "C388", "title": "grpFillForwardBackward leaves NaN only in groups without values", "statement": "After grpFillForwardBackward every row of a group has the last value of its group up to it, else the first one after it; it is NaN only if its group has no value.", "quantifier": "all columns with NaN, all groups of rows", "why_tests_cant": "all lengths and interleavings of groups", "anchors": ["riptable/rt_groupbynumba.py: GroupbyNumba.grpFillForwardBackward"]}
{"id": "C389", "title": "Grouped fills of numba are determined by the table", "statement": "The results of grpFillForward and grpFillBackward depend only on the column and the groups, not on what was in memory before.", "quantifier": "all columns, groups and contents of memory", "why_tests_cant": "contents of memory are chance", "anchors": ["riptable/rt_groupbynumba.py: GroupbyNumba.grpFillForward, grpFillBackward, grpFillForwardBackward"]}
