# Formal model of riptable (pinned commit in /repo)

## Approach

riptable is a Python front end over a C++ kernel library (`riptide_cpp`) that is
not part of the repository.  The model covers the *Python and numba code that
exists in /repo*, function by function, as total computable Lean functions.
The C++ kernels (hashing group-by, `lexsort`, `ismember`, CRC) are never
modelled by invention: where Python code calls them, the model takes their
result as a parameter constrained by a stated contract (a `structure`/`def`
predicate), and a reference construction is given to show the contract can be
met for every input (non-vacuity).

Layout (`lean/Verif/<Area>/`):

* `Model.lean` - definitions, each citing file and lines in /repo;
* `Spec.lean`  - small, independent specification vocabulary;
* `Lemmas.lean` - helper lemmas (absent when short);
* `Props.lean` - the property theorems, each with a non-vacuity `example`.

Exceptions are values (`Except`/`Option`).  Arrays are `List`s; machine
integers are `Nat`/`Int` (no wrap-around) unless a definition says otherwise;
floating point values are modelled as an abstract ordered type plus NaN
(`Option`) where only comparison matters.  numba loops are modelled as
recursive functions over the loop state, with the same branch structure.

If the code violates a property, the negation is proved on a concrete witness
(name ends in `_counterexample`), the strongest true restriction is proved with
suffix `_partial`, and the disagreement is listed below under
"Disagreements found".

## Trusted base

* Lean 4.33.0 kernel; Mathlib lemmas are kernel-checked as well.
* Axioms: only `propext`, `Classical.choice`, `Quot.sound` (checked with
  `#print axioms`).
* The transcription from Python to Lean (by hand; citations beside each definition).
* numpy primitives used by the modelled code (slicing, boolean masks,
  `searchsorted`, `cumsum`) behave as documented.
* Contracts of `riptide_cpp` functions listed with each area.

## Plan per property

| id | what is modelled | how it is proved |
|----|------------------|------------------|
| C01-C04 | `rt_merge.py` fancy-index construction over an abstract grouping (`ikey`, `igroup`, `ifirstgroup`, `ncountgroup`) | equality with a list-comprehension specification of the relational join; grouping contract `Grouping.WF` with a reference construction |
| C05, C06 | the two-pointer loops of `rt_merge_asof.py` | loop invariant over the two cursors; specification "last index satisfying the predicate" |
| C07 | grouped loops | reduction to the ungrouped theorem inside each group |
| C08 | `_merge_asof_combine_into_nearest` composed with C05/C06 | minimality over all right rows |
| C09 | sortedness flags set by the loops | counterexample + `_partial` for visited prefix |
| C10 | `_construct_colname_mapping` over name lists | disjointness/injectivity of returned mapping; counterexamples where the checks are incomplete |
| C11-C13, C16 | `rt_itemcontainer.py` as an ordered association list | induction over the list |
| C14 | `Struct.col_map`, `_safe_reordering_of_renames`, `_get_seq`, `col_swap` | chain/cycle decomposition, simulation by simultaneous rename |
| C15 | item container with a heap for attribute objects | frame theorem + counterexample for shared attribute objects |
| C17, C18 | fill loops | loop invariant, pointwise specification; reversal |
| C19 | cummin/cummax loops with sentinel or NaN invalids | prefix specification |
| C20 | `build_core_list`, per-core loops over groups | partition theorem, schedule independence |
| C21 | `_numbasum`, `_numbamin` inner loops | permutation invariance for sum; counterexample for min |
| C22-C25 | `rt_str.py` numba kernels over fixed-width rows | equality with `List`-level specification of Python string functions |
| C26 | `SortCache` and its callers as a state machine | invariant by induction on operation histories |
| C27 | `hstack_groupings` | decode homomorphism |
| C28-C31 | `Categories`/`Categorical` edits, `GroupingEnum` dictionaries, `isin`, `count` | decode refinement; counterexamples |
| C32 | date tables and `searchsorted` arithmetic | agreement with an independent Gregorian calendar for 1970-2099, counterexamples outside |
| C33 | DST tables and conversions | round trip for all instants outside the gaps; counterexamples on switch instants |
| C34 | `Struct.__setattr__`/`__delattr__` state machine | invariant by induction; counterexamples |
| C35 | `quantile` | counterexample + partial |
| C37 | schedules of the `prange` loops of the join as permutations of the iterations; uninitialised buffers as arbitrary contents | permutation invariance of disjoint writes |
| C38 | the same for the grouped as-of kernels | writes of a group stay in rows of the group |
| C36 | `_hstack_dataset` gap logic | list equality with specification |
| C39 | sort list of `Struct` | same invariant as C34 |
| C40 | same model | frame theorems for set, delete, remove |
| C41 | `_nb_fill_backend`, `_numba_fill_direction` on the thread machine | race freedom + refinement to the plain fill; counterexample for filtered rows |
| C42 | `_numbaEMA` on the thread machine | race freedom + induction over the group |
| C43 | `merge2` on Datasets over join indices, assembly loops over a dictionary | refinement to `IsMerged` of the join specification |
| C44 | `_validate_groupings` on group counts | equivalence with 'some key occurs twice' |
| C45 | `merge_lookup` as a call of `merge2` | composition of C04 with the assembly theorem |
| C46 | `CatString` over labels and codes | row-wise refinement; counterexample for open slices |
| C47 | `_sort_values`, `_copy_attributes` | contract of `lexsort`; pairwise order transported through the row reordering |
| C48 | loop of `hstack_dict` | equality with the item index per row |
| C49 | DateTimeNano fields over the time zone model | fields from the calendar lemmas with nanosecond units; counterexamples for day_of_month, minute, date |
| C50 | rules in law as separate specification | tables proved equal to the rules (whole finite table), intervals by counting lemma for every instant |
| C51 | `Grouping` as a state machine over a cached packing; invariant: the cache is the packing of the current rows under the remembered filter | invariant by induction over operations; exact listing theorem |
| C52 | loops of `_apply_helper` over bins writing into result arrays | induction over bins; result equals the function on each group's values |
| C53 | `Grouping.apply` including its guess of the kind of result | equality with the specification per group / per row; counterexamples for the guess |
| C54 | `GroupByKeys` as a state machine, `_finalize_dataset` | invariant by induction over requests; pairs of label and value |
| C55 | `_possibly_transform` | exact theorem per row |
| C56 | `shrink` with and without `misc` | label of every row before and after |
| C57 | `regroup` with `CombineAccum1Filter` by its documented result and `lexsort` by contract | inverse permutation argument |
| C58 | `take_groups`, `extract_groups` over a packing | equality with concatenated groups |
| C59 | `count_uniques` | equality with the number of distinct values |
| C60 | Dataset level of `merge_asof2` over the proved kernels | composition: index per left row, names, columns; three directions |
| C61 | tolerance normalisation on exact numbers | case analysis, floor of a rational |
| C62 | `quantile` over a contract for `lexsort` | window = sorted finite values, position lemma |
| C63 | `cut` with documented kernel | prefix count of an ascending list, edges from checks |
| C64 | `qcut` | quantiles monotone in the fraction, 0 and 1 give the extremes |
| C65 | cells of `make_dataset` as slices of the bins, permuted for display | all tables; filtered column and `ac[i]` only unsorted |
| C66 | margins from the cells (functions computable from parts) and from the data (exact) | proved for the first kind; partial for the second |
| C67 | order of the two Categoricals when saved and loaded | exact: exchanged |
| C68 | type tables, conversion, first match | proved for lossless pairs of types and surviving values |
| C69 | pairwise aligned columns, first equal row; `assoc_copy` | proved for surviving values |
| C70 | value conversion in `Categorical.isin` | proved for values that fit |
| C71 | packed positions for `duplicated`, group reductions for `drop_duplicates`; rows by equality of contents | proved for first/False; last characterised |
| C72 | row and column arguments to row lists; `copy_apply` | proved except `tail(0)` |
| C73 | assignments as steps with an exception; frame, values, get-put | proved; violations recorded |
| C74 | index arithmetic of tiling and repeating; column lists as ordered dict | proved for names that do not clash |
| C75 | bin number as mixed radix of the two codes; cells by injectivity; melt then pivot | proved under the grouping contract; violations recorded |
| C76 | loop over columns with invariant (seen names, first or last column) | proved |
| C77 | loop over rows; counting of keys | proved for different names and equal keys; violations recorded |
| C78 | block arithmetic against all combinations; finished columns by sums | proved without empty lists; violations recorded |
| C79 | filter of columns, fold of masks, selection by the indexing model | proved where a column stays; violations recorded |
| C80 | footer calls over a heap of attribute objects | refinement by induction over histories; frame for the deep copy; counterexamples for slices and `sort_copy` |
| C81 | `equals`, `==`, with numpy broadcasting for `exact` | exact characterisation of what is tested, then equivalence with the specification under stated conditions; symmetry, reflexivity; counterexamples |
| C82 | masks, funnels and operators of the four classes over lists with wrap-around | pointwise theorem over all pairs of kinds from one lemma on the masks; exact theorems for one entry; counterexamples |
| C83 | the comparison functions | cell lemmas, exact characterisation where wrong |
| C84 | `Date.range`, `start_of_week`, `start_of_month` | membership of `arange`; calendar theorems of C32 |
| C85 | `apply_cols` over ordered dictionaries, renaming loop | induction over the columns and over the renaming loop; exact condition for raising |
| C86 | `_operate_iter_input_cols` | loop invariant: names so far, summaries seen; layouts that conform are labels ++ rest with summaries last |
| C87 | columns as addresses of arrays in memory | count of columns sharing an address; prefix up to the failure |
| C88 | footer rows cut and put back | cell by cell through the zip of names and values |
| C89 | `reduce` with axis 0 and None | lookup by induction over the columns; functions computable by parts |
| C90 | `reduce` with axis 1, the kept matrix as state | matrix as list of columns, histories by induction |
| C91 | the loops of `any`, `all`, `_mask_reduce` | loop invariant per row |
| C92 | `transpose` as rows of the columns | rows of rows are columns; injectivity of the names |
| C93 | numpy slices and assignments to slices with whole-number bounds | closed form of the result, then entry by entry |
| C94 | the sorted different entries; first rows and counts of groups | sortedness against the sentinel; contract of grouping |
| C95 | the masks of the single labels | joined masks entry by entry, from C-claims about one label |
| C96 | as C95; the categories with the sentinel in front | exact meaning, counterexamples |
| C97 | assignment of codes | rows replaced, others unchanged; exact failure cases |
| C98 | map by dictionary and by array | exact value of every row |
| C99 | one mask per category | every row in exactly one |
| C100 | shifted codes, joined labels | from C93; base index 1 |
| C101 | regroup as written, with argsort of argsort | ranks are positions in the sorted keys; contract of the C++ |
| C102 | codes shared by old and new Categorical | lookup in the filtered mapping |
| C103 | pointers through the categories of the categories | code by code |
| C104 | the two checks, first mapping that has a label | agreement of all pairs of mappings |
| C105 | the index arrays of merge, columns from `finish` of Merge2 | index arrays = specified row pairs; `finish_ok` |
| C106 | as C105, with `unique32` of all keys | contract of `unique32` |
| C107 | as C105 | exact row pairs; equal to the specified ones without repeated left keys |
| C108 | the checks of merge in their order | case by case |
| C109 | cells and meta data of one file | the special arrays' cells are found again by name and number |
| C110, C111 | flat dictionary with `/` and `!` in the names, and the walk that rebuilds the tree | induction over the tree with the flat entries of a prefix |
| C112, C113 | writes of the walk over the tree; schema as a tree of names; loading along it | which files there are characterised by paths; the schema by its paths; loading by induction over the schema |
| C114 | a path with a file and a directory | from C109, C112 |
| C115 | the check in `writeFile` | induction over the tree |
| C116, C117 | slices from cumulated sizes; names as an ordered dictionary | slices of a concatenation; uniqueness of the slice of a row |
| C118 | the search for the differing digits, on padded reversed names | positions of differences bound the search; extension to the whole number |
| C119 | operations that replace rows only | from C116 |
| C120, C121 | heap of Datasets, dictionaries of columns and footers | folds over margins and footers keep the table in normal form |
| C122, C123 | arithmetic of two tables, guard on the Categorical | normal form of the quotient; the guard removes a name unless it is stuck |
| C124 to C126 | normalization in place, loop over entries | folds change each column once; sums over labels of a partition of the data |
| C127 to C129 | alignment of sorted columns as a parameter, permutations | transfer along the sorting permutation, lexicographic order of key and row |
| C130 to C136 | loops with fuel, sorting, texts as lists of letters | induction along the loop, counting in sorted lists, floor division |
| C137 to C145 | dictionaries as lists of pairs; the loop over names with its counters; one calculation as a parameter | invariant of the loop over names, lookups through folds, injectivity of names with suffixes |
| C146 to C155 | items as dictionaries, nested Multisets as a mutual inductive type, Datasets with columns and labels | invariant over histories; mutual induction over nested Multisets with the paths to the Datasets; the state of flattening as a table of the Datasets done so far |
| C156 to C168 | codes and columns of categories over any linear order; documented results of the C++ grouping and sorting | first rows of groups are distinct and complete; sorting permutes codes and categories alike; codes in range fit every chosen integer type; binary search in strictly ascending categories |
| C169 | `where` | rows are chosen as the condition says, for all types |
| C170 | `where` | numbers that the common type holds are kept; counterexamples for Python floats and lengths |
| C171 | `where` of Categoricals | via stacking (`Cat`); counterexamples for base index 0 and mappings |
| C172 | `unique` | grouping (`CatNew`) read off: different rows, first rows, positions, numbers |
| C173 | `unique` of lists | reduces to arrays; counterexamples |
| C174 | `unique` of Categoricals | as C172; counterexamples |
| C175 | `map`, `map_old` | induction over the dictionary |
| C176 | `count` | as C172; counterexample |
| C177 | mask functions | induction over the arguments, memory before and after |
| C178 | mask functions in place | invariant under repeated arguments; counterexample for xor |
| C179 | `cat2keys` | layout of tiled and repeated columns; fresh names by counting |
| C180 | `min_scalar_type` | ranges of the types |
| C181 | `logical_find_common_type` | ranges of the types |
| C182 | `cat2keys` with invalid rows | layout with one more row and column; counterexamples |
| C183 | `sample` | any draw without replacement, sorted |
| C184 | `FastArray.to_arrow`, `from_arrow` | case analysis on nulls and widening; flattening of chunks |
| C185 | `from_arrow` of numbers | as C184; exact theorem for nulls, counterexample |
| C186 | `from_arrow` of integers | when it raises, which type results |
| C187 | text there and back | row by row; counterexample |
| C188 | `from_arrow` of text | row by row; buffers as bytes; counterexamples |
| C189 | `Categorical.to_arrow`, `from_arrow` | via C190; exact theorem for base index 0 |
| C190 | `Categorical.from_arrow` | integer ranges of the types of the indices; counterexamples |
| C191 | chunked dictionaries | via stacking (`Cat`); counterexamples |
| C192 | several keys | counterexample for all keys |
| C193 | mappings | positions of pairs; exact theorem and counterexamples |
| C194 | Dates there and back | row by row, chunks by induction |
| C195 | `Date._from_arrow` | as C194; counterexample |
| C196 | DateTimeNano there and back | via C197; counterexample |
| C197 | `DateTimeNano._from_arrow` | via time zones (`Tz`); counterexample |
| C198 | TimeSpan | row by row; counterexample |
| C199 | `Dataset.to_arrow` | induction over the columns |
| C200 | `Dataset.from_arrow` | induction over the columns; counterexample |
| C201 - C204 | `Pandas/Numbers` | integer columns as lists, null as `none` |
| C205 - C207 | `Pandas/Text` | object columns as lists of cells |
| C208 - C210 | `Pandas/Cats` | codes and categories |
| C211 - C215 | `Pandas/Times` | numbers of units and NaT |
| C216, C217 | `Pandas/Tables` | frames as lists of named columns, any conversion of a column |
| C218, C219 | `NanoObj/Zones`, `NanoObj/Results` | state machine with a store of TimeZone objects; invariant over all histories |
| C220 | `NanoObj/Results` | `hstack` over all reachable states |
| C221 - C224 | `NanoObj/Scalars` | scalar methods; counterexamples |
| C225 | `NanoObj/Start` | rows of `start_date`; counterexample |
| C226 - C228 | `DsOps/Assign` | state machine with exceptions; invariant and frame over all histories; counterexamples |
| C229 | `DsOps/Objects` | cells of object arrays; exact theorem; counterexamples |
| C230 - C232 | `DsOps/Rows` | objects in a store; index arithmetic of `tile` |
| C233 - C236 | `DsOps/Funcs` | dictionaries filled in order; counterexamples |
| C237 - C240 | `Ufunc/Binary` | type choice by cases over all pairs of types; gap between float64 numbers; counterexamples for every conversion that meets the contract |
| C241 - C246 | `Ufunc/Reduce` | induction over chunks, permutation invariance, wrap-around; counterexamples |
| C247, C248, C252 | `SdsStack/Filter` | induction over filter and rows; counterexamples |
| C249 - C251, C253 | `SdsStack/Items`, `Rows`, `Refused` | reduction of the stack to `hstack_rows`/`hstack_mapping_partial` by column; gap detection for all lengths; counterexamples |
| C254 - C256 | `TimeShow/Float`, `Clock` | error analysis of float64 division for all values; parsing of the shown text |
| C257 - C260 | `TimeShow/Strf` | error bounds of two roundings; counterexamples for every rounding |
| C261 | `TimeShow/Short` | a quotient is whole only for multiples |
| C262 - C264 | `Flatten/Safe`, `Step`, `Result` | each operation permutes the contents; invariant over the folders |
| C265 | `Flatten/Retry` | the files to be are the same on each disk on the way |
| C266 - C270 | `Ema/Props` | the register is the decayed sum of the rows so far; the registers before a reset do not matter |
| C271 - C275 | `StructCmp/Props` | induction over the keys and the nesting |
| C276 - C278 | `Csv/Props` | columns built by each version are the columns of the converted rows |
| C279 - C281 | `StructEq/Props` | mutual induction over nested Structs |
| C282, C283 | `NpIo/Props` | file names are injective for names without `.npy`; permutations of the listing |
| C284, C285 | `StructStack/Props` | collected items are the items under each key; keys by first occurrence |
| C286, C287 | `Take2/Props` | blocks of the expanded index; position `i*n+j` of the flattened matrix |
| C288, C289 | `Take2/Props` | unfolding the two Categoricals; codes are first places |
| C290, C291 | `Conv/Matrix` | sorted different values and their places |
| C292 | `Conv/Dicts` | folding `put` over different names |
| C293 | `Conv/KeyCol` | induction over the dictionary, Datasets in a heap |
| C294, C295 | `MemberCat/Props` | codes and labels determine each other when no category occurs twice |
| C296 - C298 | `CatSds/Props` | dictionaries as lists of different keys; last entry with a label |
| C299, C300 | `MergeKeys/Props` | pairs of names entry by entry; kinds of types |
| C301 - C303 | `SdsPath/Props` | induction over answers; suffixes of paths |
| C304 | `Regex/CallProps` | split of the parameters at the positional arguments |
| C305 - C307 | `Regex/Props` | rows one by one; dictionaries of different names; induction over masks |
| C308, C309 | `CatAlign/Props` | slices of stacked codes; codes injective on different categories; induction over columns |
| C310 | `PdCat/Props` | minimum of codes; cases of widths |
| C311 | `StructTree/Search` | mutual induction over trees |
| C312, C313 | `StructTree/Props` | mutual induction over trees; dictionaries of different names |
| C314 | `Show/Rows` | lists of indices |
| C315, C319 | `Show/Fit` | invariant of the loop: as many columns on both sides; induction over columns |
| C316, C317 | `Show/Lines` | zip of lists of one length; widths bound all texts |
| C318, C320, C321 | `Show/Heads` | induction over headers from both ends; prefix sums; counting of names |
| C322 | `ApplyOut/Props` | induction over bins; the object array as list of entries |
| C323, C324, C325 | `ApplyOut/Outs` | induction over consecutive slices; reverse shuffle of `Grp` |
| C326, C327 | `SdsLoad/Props` | cases over the first candidate that is there |
| C328, C329 | `SdsLoad/Props` | induction over the list; results related pairwise to the paths found |
| C330, C331 | `SdsLoad/Props` | dictionaries built by folds; induction over names and directories |
| C332, C333, C334 | `GbKeys/Props` | invariant between what is known and the state, induction over the history |
| C335, C336 | `GbKeys/Props` | uniqueness of the match; induction over the places |
| C337, C338 | `Schema/Props` | mutual structural induction over the tree; induction over the deviation |
| C339 | `Schema/Props` | mutual structural induction: what is written, and that the last write holds |
| C340, C341, C342, C343 | `Sizes/Props` | invariant of the loop; length of a list without duplicates; induction over what is inside |
| C344, C345 | `DsNew/Props` | induction over the entries with what is in already; induction of the check |
| C346 | `DsNew/Props` | induction over the entries against the model of assignment |
| C347, C348 | `Matlab/Props` | each step is a map (filterMap) over the columns; fusion by induction over the texts; per column against the specification |
| C349 | `Matlab/Props` | computed counterexamples, C347 and C348 as the exact part |
| C350 | `Matlab/Props` | induction over the reversed text |
| C351, C352 | `AccBad/Props` | masks as predicates on codes; keep/put as filter/map; totals of parts by permutations, for one function of parts |
| C353 | `AccBad/Props` | filters as predicates on labels, with the totals of `Accum/Props` |
| C354, C355 | `AccBad/Props` | from C351; induction over the data columns |
| C356, C357 | `H5/Props` | loops as recursion with a bound proved to suffice by counting; dictionaries as lists |
| C358, C359 | `H5/Props` | fold over the items; columns of a matrix by index |
| C360 - C362 | `RecArr/Props` | rows by index; casts as functions of numbers; floor and ceiling of rationals |
| C363 | `RecArr/Props` | induction over the bits, for every width |
| C364 - C366 | `ColPop/Props` | `col_remove_correct` of `Struct/Edit`; every argument form by cases, lists by induction |
| C367, C368 | `SpanRed/Props` | induction over the spans; sorting commutes with positive factors |
| C369 - C371 | `FillInv/Props` | cases over classes and types, any length |
| C372, C373 | `Pickle/Props` | cases over classes and types, any length; the zone tables through `Verif/Tz` |
| C374 | `Stats/Props` | normal equations: residuals orthogonal to every feature, any number of rows and features |
| C375 | `Stats/Props` | Cauchy-Schwarz for lists |
| C376 - C381 | `Stats/Props` | induction over the rows |
| C382 | `MatDate/Props` | `daysBeforeYear_closed`, floor, `Calendar.date_fields_partial`, `Calendar.dayNumber_injective` |
| C383 | `MatDate/Props` | `Tz.toUtc_exact`, `Tz.local_round_trip_partial` |
| C384 | `MatDate/Props` | floor, order of day numbers, counterexample |
| C385 | `Outlier/Props` | the four assignments computed for a general name, each row from the contract of the search |
| C386 | `Outlier/Props` | computed counterexamples, the loss for all datasets |
| C387 | `GrpFill/Props` | induction over the group for each loop, writing of disjoint groups |
| C388 | `GrpFill/Props` | C387 twice |
| C389 | `GrpFill/Props` | rows outside keep memory; rows inside do not depend on it |

## What is modelled, per area

### Fill, Cum (C17-C19)
`rt_fastarraynumba.py` fill_forward, fill_backward, cummin, cummax kernels and their
dispatch.  Not modelled: numpy dtype conversion of the `fill_val`/`limit` arguments.

### Merge (C01-C04, C37)
`rt_merge.py` fancy-index construction for left, right, inner, outer joins, `keep`
handling, and `merge_indices`.  The grouping (`Grouping`: `ikey`, `gbkeys`, derived
counts and row lists) is a parameter with contract `Grouping.WF`; `Grouping.ofKeys`
is a reference construction.  `ismember` is modelled on the group keys.  Not
modelled: dtype promotion of keys, the `fill`/column copy through `mbget` (the
indices are the result), `merge2` option parsing.

### Asof (C05-C09, C38)
`rt_merge_asof.py` kernels, grouped kernels, nearest combination, flag checks.
`get_min_valid`/`get_max_valid` are parameters (`Bounds`).  Not modelled: dtype
promotion, tolerance parsing, subtraction overflow (keys live in an ordered
additive group where subtraction matters).

### Items (C11-C13, C15, C16)
`rt_itemcontainer.py` (item set/delete/rename/move/prefix/suffix/replace, attributes,
labels and summaries, `copy`) and `Dataset._copy`/`_as_itemcontainer`.  Attribute
objects live in a heap since they are shared by shallow copies.  Theorems are a
refinement: `observe` maps a heap and container to an abstract list of columns, and
every operation, raising or not, commutes with its abstract counterpart.  Attribute
values are natural numbers.  Not modelled: warnings, column selection by regular
expression or bool mask, row selection of a copy, lock checks (see C34).

### Struct (C14, C34, C39)
`rt_struct.py` column operations on top of Items: attribute assignment and deletion,
`col_set_value`, `col_remove`, `col_rename`, moves, prefix/suffix, `col_str_replace`,
`col_swap`, `col_map` (with `_safe_reordering_of_renames`, `_get_seq`), labels, the
lock, the separately kept `_ncols` and the sort list.  An operation returns the new
state together with the exception, so partial effects are visible.  `Cls` is the
class's set of methods, properties and keywords (parameter).  Not modelled:
`_nrows`/length checks, value-dependent checks of `_check_addtype`, regular
expressions, `col_filter`, nested structs.

### Numba group-by (`Verif/Par`, `Verif/GbNumba`) — C20, C21, C41, C42

`Par/Machine.lean` is a machine of threads with private registers and a shared array; a
schedule picks which thread makes the next load or store.  `Par/Lemmas.lean` proves that
threads on disjoint cells do not interfere (`race_free`).

Modelled from `rt_groupbynumba.py`: `build_core_list`, `_nb_groupbycalculateall`,
`_numbasum`, `_numbamin` (one thread per core, reset of the bins included);
`_nb_groupbycalculateallpack`, `_nb_fill_backend`, `_numba_fill_direction`, `_numbaEMA` (one
thread per group).  `iGroup`, `iFirstGroup`, `nCountGroup` are the arrays determined by the
group numbers, as in the merge model.  Freshly allocated arrays have arbitrary contents.
Not modelled: the function tables, dtype promotion, rounding and overflow, `_numbaEMA2`,
`_numbaTrim` (unreachable through the function table).

### Merged Datasets (`Verif/Merge2`) — C10, C43-C45

Modelled: `_construct_colname_mapping`, `_validate_groupings`, `_get_or_create_keygroup` (plain key columns,
any number), `merge_indices`, `merge2`, `merge_lookup` of `rt_merge.py`.  A Dataset is a row count and an
insertion-ordered dictionary of columns over one value type with one missing value.  Outside: dtype checks and
promotion, Categorical keys and columns, read-only views versus copies, performance hints, logging.
Contracts (`World.OK`): `Grouping` construction as in Merge; loop schedules are permutations; the iteration
order of a Python set is an arbitrary permutation.  `IsMerged` (Spec) says what the result is; `merge2_correct`
composes it with the join theorems C01-C03, `merge_lookup_keep` with C04.

### Strings (`Verif/Str`) — C22-C25, C46

Modelled: the kernels `_nb_upper`, `_nb_lower`, `_nb_removetrailing`, `_nb_strlen`, `_nb_reverse`, `_nb_index_any_of`,
`_nb_index`, `_nb_contains`, `_nb_find`, `_nb_endswith`, `_nb_startswith`, `_nb_replace`, `_nb_substr`, `_nb_char`, the
methods around them in `FAString`, `_SubStrAccessor`, `CatString._convert_fastring_output` and
`Categorical._from_maybe_non_unique_labels` (base index 1).  Each row iteration is a list of stores; the rows run on the
thread machine of `Verif/Par` under any interleaving into an uninitialised array.  Characters are natural numbers.
Outside: regular-expression functions, conversion between byte and unicode arrays, in-place kernels, `apply` with a user
kernel.  Specification: Python's string functions on the decoded row (`decode` drops the NULs at the end like numpy).

### Sort cache (`Verif/SortCache`) — C26, C47

- Modelled: the whole of `SortCache` (`rt_sort_cache.py`); `get_row_sort_info`, `_sort_lexsort`, `_sort_values` (views, copies, in place), `sorts_off`, the sort part of `_copy_attributes` (`rt_dataset.py`); the sort part of saving and loading (`rt_struct.py:1184`, `:1298-1303`, `:1619-1630`); `Dataset.__del__`.
- Parameters: `crc64` (`Distinct`: tells apart the contents that occur in the history) and `lexsort` (`LexOK`: permutation, sorted, last key primary). A reference `lexsort` on integer columns meets `LexOK`.
- A history may change a Dataset in any way at all (`Op.put`): in-place writes, renames, removals are all covered. Identifiers may collide.
- Not modelled: the user-supplied `sort_rows` index; footers; `display` beyond asking for the order; Multisets.

### Categoricals (`Verif/Cat`)

`Model.lean`: Categoricals with one string key as codes plus the *two* label lists of the code (`Categories._list`, unique
list of the `Grouping`), the flag whether both are one array, item width, code width, `sorted`/`auto_add`/`locked` flags;
`get_category_index` (doubled, because it may be half-integral), `category_add/remove/replace`, `__setitem__` with a label,
`c[i]`, `expand_array`, `expand_dict`, comparisons with a label.  `Spec.lean`: labels of the rows, the effect of an edit on
labels and rows.  `Edit.lean` (C28), `SetLabel.lean` (C29), `Mapping.lean` (C30: the two dictionaries of `GroupingEnum`),
`Filtered.lean` (C31: comparisons, `Grouping.isin`, `Grouping.count`), `Stack.lean` and `StackMap.lean` (C27:
`_hstack_categorical`, `merge_cats`, `hstack_groupings`, and comparison of two Categoricals).

Trusted contracts: `groupbyhash`/`groupbylex` (`GroupOK`, met by `refGroup`), `crc32c` separates arrays of equal shape,
`np.searchsorted` on sorted arrays, `unique` of rt_numpy.  Not modelled: `rc.ReIndexGroups` (C++; the Python loop that it
replaces is modelled), numeric categories, conversion between bytes and unicode, assignment of a Categorical.

### Stacking Datasets (`Verif/Hstack`)

`hstackDs` follows `_hstack_dataset`: gathering dimensions and second dimensions per name, the checks, and the loop with its running gap counter. The specification is `contribution`: what each Dataset adds to a column. `hstackDictCodes` is the loop of `hstack_dict` filling the code array slice by slice. Not modelled: dtype mixing of the array-level hstack (C++), custom column classes, `destroy=True`.

### Quantiles (`Verif/Quantile`)

`interpolate`, `quantile` and `describe_helper` of rt_utils over integer columns with a sentinel; sorting is `List.insertionSort`, floating point arithmetic is exact rational arithmetic. The specification `IsQuantile` speaks of any ascending arrangement of the valid entries and the piecewise linear function through it. The standard deviation is not modelled.

### Calendar (`lean/Verif/Calendar/`, C32)

`rt_datetime.py:85-262` (year and month tables, transcribed), `_year`, `_month`, `Date.year/month/day_of_month/day_of_year/day_of_week/
is_leapyear`, `_apply_inv_mask`. The specification (`Spec.lean`) is an independent Gregorian calendar: leap years, month lengths and the
number of a day, with proofs that it determines the date. Not modelled: string parsing and formatting, int32 overflow of day numbers.

### Time zones (`lean/Verif/Tz/`, C33, C49, C50)

`rt_timezone.py`: all daylight saving tables (transcribed by a script as (year, month, day, hour, minute); the C++ conversion of the date
strings to nanoseconds is replaced by its contract `Entry.nanos`), `TimeZone.__init__`, `_init_from_tz`, `_init_to_tz`, `_mask_dst`,
`_is_dst`, `_tz_offset`, `fix_dst`, `to_utc`, `_set_timezone`, `copy`. `Spec.lean` defines the wall clock of a zone from its switches;
`Rules.lean` defines daylight saving time from the rules in law and proves the tables equal to it. `Nano.lean` models the fields of
`DateTimeNano`. Integers are unbounded; `%` and `//` are taken as floor operations (negative local times are outside the theorems on
dates). Not modelled: division into fractions of hours (floats), string conversion, custom zones of `zoneinfo`.

### Groups (`Verif/Grp`, C51-C59)

Modelled: the lazily cached packing of a `Grouping` (`pack_by_group`, `igroup`, `ifirstgroup`, `ncountgroup`, `igroupreverse`, `get_groupings`, `count`, `iter_groups`, `as_filter`, `first_fancy`, `last_fancy`, replacing the codes) as a state machine; `_apply_helper` (reduce and nonreduce), `apply`; `GroupByKeys` with prebinned keys as a state machine and `_finalize_dataset`; `_possibly_transform`; `shrink`, `regroup`, `take_groups`, `extract_groups`, `count_uniques`.

Not modelled: the C++ packing itself (its documented result is `pack`), `lexsort` (contract `SortsColumn`, met by `refSort`), numpy dtypes (a parameter `Dt` with a cast and an invalid value), functions that return arrays or dictionaries from `apply`, enum groupings in `shrink`/`regroup`, the tolist fallback of keys.

A user function is a parameter: a function from the values (rows) of a group to a result or an exception.

### As-of merged Datasets (`Verif/AsofDs`)

`Model.lean` models `merge_asof2` (`rt_merge_asof.py:1250-1753`) on top of the index kernels of `Verif/Asof` and
the column naming of `Verif/Merge2`: presence checks, number of keys, masking of null `by` keys (right only),
assembly of the output dictionary, `matched_on`, the final `Dataset` constructor; and
`_validate_and_normalize_tolerance` (`:1146-1248`) on exact numbers.  Not modelled: dtype compatibility of keys,
deprecated keyword arguments, `copy`, warnings, promotion of two different `on` dtypes (one common type is given).
Rounding of a tolerance to a float dtype is not modelled.

### Binning (`Verif/Bin`, C62-C64)

`Bin/Model.lean` models `rt_bin.py`: `quantile` (window of finite values, position, three
interpolation methods), `cut` (equal width edges, edge checks, filter), `qcut`, the duplicate
check and the labels. Values are exact rationals, infinities and NaN. `lexsort` is a parameter
with contract `IsLexsort` (met by `exLex_ok`). `BinsToCutsBSearch` is C++ and modelled by the
docstring of `cut`; `BinsToCutsSorted` by the examples of `qcut`, with its code for NaN and
infinities left open (`special`). `_round_frac` is a parameter. Not modelled: integer columns,
`retbins`, `cut` with a bin count when a value is infinite or all are NaN, rounding errors of
`linspace`, `_cut_result` beyond its base index.

### Accum2 cross tables (`Verif/Accum`)

`rt_accum2.py`: bin numbering (`combine2groups`), `make_dataset`, `_make_imatrix`, `_apply_2d_operation`, `_accum1_pass`,
`_calc_onepass`, `_calc_multipass`, `_add_totals`, `_internal_getitem`, and which Categorical is saved and loaded in which
place. The data is a list of rows (two codes, value, passes the filter); the reduction is an arbitrary function of the
list of values of a bin in row order (C++). `Spec.lean` says which data rows belong to a cell, a row, a column and the
table in terms of labels. Not modelled: `badrows`/`badcols`, multikey axes, several value columns, user functions, dtypes.

### Membership (`Verif/Member`, C68-C70)

`rt_numpy.py`: `_find_lossless_common_type`, `_find_lossless_common_array_type`, `ismember` of two numeric arrays and of two
lists of numeric columns, `_ismember_align_multikey` (numbers), `assoc_copy` of an array, and the conversion of values in
`Categorical.isin`. Numbers are rationals, NaN and the infinities; which of them a type holds is in `Spec.lean`
(`m * 2^e` for floats). The hash lookups and conversions are C++ or numpy: first equal element, and the contract
`CastsOK` (values that fit are kept, missing stays missing, floats truncate, uint64 wraps), met by `refCasts`.
Not modelled: strings, Categorical arguments, long doubles, negative zero.

### Repeated rows (`Verif/Dup`, C71)

`Spec.lean` says what an earlier, a later and a last equal row is, and states the contract `Numbered` of `groupby` (rows have the same number
exactly when they agree in the chosen columns; numbers 1..n in order of first appearance). `Model.lean` follows `duplicated` on the packed
arrays, with the array `iFirstGroup` after the call as a second result, and `drop_duplicates` through the group reductions. `refGroup` is a
reference grouping meeting the contract. Not modelled: columns the group reductions refuse (`first`/`last` accept all types), the sort order of `groupby`.

### Indexing (`Verif/Idx`, C72, C73)

`Spec.lean` says which rows and columns an argument asks for (`RowsMeant`, `ColsMeant`, `IsSlice`), without the model. `Model.lean` follows
`_extract_indexing`, `_mask_get_item`, `_index_from_row_labels`, `__getitem__`, `__setitem__`, `head`, `tail`, `filter`, `putmask`; numpy's slice
arithmetic is modelled as CPython's `PySlice_AdjustIndices` and proved equal to the meaning. An assignment is a state step that returns the table
with the exception, so partial updates are visible. Not modelled: conversions of values between types, two-dimensional columns, storing a whole
Dataset as one column, `Struct.AllNames`.

### Melt and pivot (`Verif/Shape`, C74, C75)

- Modelled: `Dataset.melt` (choice of columns, `pop` of the id columns, tiling, repeating, trim) and `Dataset.pivot` with
  `Accum2.make_dataset` (bin numbers from two groupings, duplicate test, first index per bin, slicing into columns, names, Multiset).
- The groupings are parameters with the contract `Grouped` (codes name the content of the row); `Ref.lean` constructs one.
- Whether the C++ group count counts rows put in bin 0 by the filter is the parameter `count0`; theorems hold for both.
- Not modelled: display labels, ordering of the groups, types of the stacked value column.

### Making Datasets (`Verif/Make`, C76-C78)

- Modelled: `concat_columns`, `from_rows`, `from_tagged_rows`, `from_jagged_rows`, `from_jagged_dict` (both forms), loop by loop, with
  the exceptions they raise. Strings are lists of characters cut at the width of the column.
- The stacked form is proved against all combinations of items (`combos`): block arithmetic for columns that are filled, and the
  shortcut for columns that are already long enough (the sums agree only if all other lists have one item).
- Not modelled: numpy's common type for items of different types, integer overflow of the number of rows.

### Trim and keep (`Verif/Trim`, C79)

- Modelled: `Dataset.trim`, `Dataset.keep` over the indexing model of `Verif/Idx`; the test is any function on columns. A test
  that returns its argument is told apart (`inplace`), because the row mask is built by in-place operations.

### Footers (`Verif/Foot`)

Modelled: `footer_set_values`, `footer_remove`, `footer_get_values`, `footer_get_dict`,
`_footers_exist`, `_ensure_atomic`, the `Footer` attribute of a column in a heap of attribute objects
(`item_get_attribute`, `item_set_attribute`), adding, replacing and deleting a column, slices,
`copy(deep=True)`, and what `sort_copy` does with footers. Not modelled: the arrays, the display,
other attributes of the same object (in `Verif/Items`), `None` as a footer value, warnings.
The specification is a table of labels and values with one update rule per call; the theorem is a
refinement by induction over histories, with a frame condition on the heap for a second Dataset.

### Dataset equality (`Verif/Equal`)

Modelled: `_dataset_compare_check`, `equals` for `axis=None` with and without `exact`,
`apply_cols(isnan)` with the renaming of summary columns, `&` of two Datasets
(`_operate_iter_input_cols`), `vstack(order="F")`, numpy broadcasting of the in-place operators.
Parameters: the element comparison and the NaN test. Not modelled: footers, `other` not a Dataset,
names that are attributes of the class, `labels=False` with different labels on the two sides.

### Arithmetic and comparison of dates and times (`Verif/DateOps`)

Modelled (rt_datetime.py): `_apply_inv_mask` with its way for one entry, `_funnel_mathops` and `_build_mathops_result`, the `__add__`/`__sub__`, `_check_mathops` and `_check_mathops_nano` of Date and DateSpan, `__add__`/`__sub__` of DateTimeNano and TimeSpan with `_fix_binary_ops`, the in-place operators of Date, the comparisons of the four classes, `Date.range` after its arguments have been parsed, `start_of_week`, `start_of_month` (over the calendar model of C32). `Spec.lean` gives the kinds of results and the arithmetic on optional nanoseconds; `meaning` reads a column. Not modelled: the scalar classes, strings, floats that are not whole nanoseconds, products and quotients, `from_tz` conversion (a parameter `toUtc`). Contracts of riptide_cpp: entrywise arithmetic with wrap-around, conversions keep invalid markers, SUBDATETIMES masks 0 and the minimum on both sides.

### Functions and arithmetic on all columns (`Verif/Cols`)

Modelled (rt_dataset.py): `apply_cols` with its fill values, the renaming of summary columns, `_construct_new_footers`, `_add_labels_footers_summaries`, `_operate_iter_input_cols`, `_labels_footers_summaries_conform`, the constructor's test of lengths, and for the in-place operators the order in which arrays in memory are changed. The function with its arguments is a parameter that may raise, return None or an array. Not modelled: operands of shape (n, 1), lists, names which are no valid column names; footer values are read as `footer_get_values` gives them (storage: `Verif/Foot`).

### Reductions, masks, transposing (`Verif/Reduce`)

Modelled (rt_dataset.py): `reduce` for axis 0, 1 and None with fill values, `any`, `all`, `_mask_reduce`, `imatrix_make` in place, `imatrix_y` over histories, `transpose`. Conversion to a common dtype is a parameter `cast`. Not modelled: Categoricals in `any`/`all`, `cats=True`, names that are no valid column names. Seen while reading and not modelled: `nanmin` and `nanmax` pass the method `min`/`max` of the Dataset as default fill value, and a column of totals takes part in the next `sum(axis=1)`.

### Functions of arrays (`Verif/Arr`)

Modelled (rt_fastarray.py): `shift`, `_internal_self_compare`, `differs`, `transitions`, `diff`, `replacena`, `nunique`, `duplicated`, with numpy slices for all signs of the bounds, and new arrays with arbitrary contents (`junk`). Comparison and subtraction of entries are parameters, grouping has the contract `Grouped` (any order of the numbers). Not modelled: `fancy=True`, the `limit` of `fillna`, arrays of more dimensions.

### Operations of Categoricals (`Verif/CatOps`)

Modelled (rt_categorical.py): comparing with lists and arrays (4776-4800, 6682-6735), assigning a Categorical (4318-4326), `categories_equal`, `map`, `one_hot_encode`, `shift_cat`, `as_singlekey`, `set_valid` (with and without mapping), `_from_maybe_non_unique_labels`, `categorical_merge_dict`; rt_grouping.py: `regroup`. A Categorical is base index, codes and labels; its meaning is the list of the labels of its rows. Not in the repository, given by a contract: `combine_accum1_filter` (`CombinedOK`; the order of the new numbers is open; `refCombine_ok` shows it can be met), the checksum of categories (equal only for equal categories, used in `assign_partial` only), making a Categorical of the categories (`UniqueOf`). Not modelled: `category_make_unique` and `regroup` of several keys other than as tuples, fancy index filters of `set_valid`, bytes and unicode.

### The older merge (`Verif/OldMerge`)

Modelled (rt_merge.py): `merge` (2874-3226) and `_construct_index` (268-378), over the Datasets, names and column code of `Verif/Merge2`. What the Dataset of a list of row pairs is, is said by the same `IsMerged`; `Verif/OldMerge/Spec.lean` says which row pairs. Not in the repository: `ismember` (first place a key is at, none for a null key; which values are null is open), `unique32` (`UniqueOK`, met by `refUnique`). Not modelled: the check of the types of the key columns, `hint_size`, logging; an unknown `how`.

### Saving and loading containers (`Verif/Sds`)

Modelled (rt_sds.py, rt_struct.py, rt_dataset.py): what is written to the file of one container (`_write_to_sds`, `_build_meta_data`, meta data of Struct and Dataset) and how a container is made from a file (`_load_from_sds_meta_data`); `flatten` and `flatten_undo` with `onefile=True`; `_sds_from_tree`, `_build_schema` and `_struct_from_schema` for directories, with the directory as a map from file names to files that is listed in any order; which of directory and file is loaded from a path. A tree of containers is a `Box` (first item and the rest). Contracts (`LibOK`, met by `refLib`): an array is read as it was written, JSON text is read as it was written, a special array is rebuilt from its meta data and the arrays it was saved as (which have different names). Not modelled: the file format and the C++ reader and writer, compression, sections, appending, stacking, `include`, shared memory, user meta data, footers (which are not saved), `None` items, what a save leaves behind when it raises, file systems that ignore case.

### Partitioned Datasets (`Verif/PDs`)

Modelled (rt_pdataset.py): the constructor from a list of Datasets or from stacked data with cutoffs, names of partitions (given, numbered, or found in file names), `pslice`, `partition`, `pdict`, `piter`, `pcat`, `prow_labeler`, `__getitem__`, `set_pnames`, `_copy`, and what `filter(inplace=True)`, `sort_inplace` and `sort_copy` of Dataset do to a PDataset. A Dataset is the list of its rows. Not modelled: loading of the files, Datasets with different columns (`Verif/Hstack`), `pgroupby`, display.

### Tables of several calculations (`Verif/AccTab`)

Modelled (rt_accumtable.py): `AccumTable.__setitem__`, `_rename_summary_row_and_col`, `set_margin_columns`, `set_footer_rows`, `gen`, and the functions `accum_ratio` (with its guard against categories called like its columns, on the Categorical of `Verif/Cat`), `accum_ratiop`, `accum_cols`; of rt_dataset.py the arithmetic of two Datasets with footers and summary columns that conform. Datasets are in a heap because an AccumTable renames the ones it is given. The cross tables are those of `Verif/Accum` (`accum2_cross`). Not modelled: several label columns, `format`, display, the filters that `trim` finds (parameters here, `Verif/Trim`), floating point (division is a parameter; sums of shares over the rationals).

### merge_asof (`Verif/OldAsof`)

Modelled (rt_merge.py): `merge_asof` with the sorting of both sides, the alignment, the way back to the given order and the choice of the nearer row; assembly of the columns as in `Verif/AsofDs`. Specification: the latest (earliest, nearest) row in terms of keys, not of positions, so that it makes sense for columns in any order. Parameters with contracts: `MultiKeyAlign32` (C++; for sorted columns the last row at or before, the first row at or after), a stable `argsort`, `issorted`; `exW_ok` shows that the contracts can be met. Not modelled: NaN in the on-columns, deprecated arguments, conversion of types, warnings.

### Cutting and rounding times (`Verif/TimeCut`)

Modelled (rt_datetime.py): `cut_time` with its loop (with fuel), the sorting and conversion of tuples, the edges at both ends, the choice of the format (`clock_format_short`) and the texts of the labels, the fixed width of numpy strings; `resample` with `parse_rule`, `min`, `max`, `arange`; `diff`. Specification: the grid of edges, the bucket of a time, the names; multiples of the step. `searchsorted` is a parameter with a contract. Simplified: texts of times with parts of microseconds are cut off instead of rounded; the remainder by a step of 0.

### Arguments and columns of group-by operations (`Verif/GbCalc`)

Modelled: `get_header_names`, `_prepare_gb_data` (for operations other than `apply*`), `agg`, `_get_agg_func`, `_quantile`, the quantile parameters (rt_groupbyops.py, rt_utils.py); `_get_calculate_dict`, `_calculate_all`, `_make_accum_dataset`, `_return_dataset`, `_finalize_dataset`, `count(transform=True)` (rt_grouping.py); `GroupBy._calculate_all`, `_getitem`; `Categorical._calculate_all`. Specification: dictionaries as lists of pairs, accepted kinds, the names given, what `agg` is asked for. The calculation of a column, the order of the groups and Python's number format are parameters. Not modelled: `showfilter`, `accum2`, totals, footers, the row check of Multisets.

### Multisets (`Verif/MSet`)

Modelled: `Multiset` (rt_multiset.py): making, assignment, deletion and numbers of rows; indexing and `_copy`; `multiget`; the two lines of headers of the display; `flatten` both ways; `cascade`, `label_fixup`. Specification: the Datasets of a nested Multiset with the paths of names leading to them (`leaves`), joined paths, the labels and other columns of a Dataset. Not modelled: locking, sorting, `__repr__` beyond the headers, slices given to `multiget`, `concat_rows` of different columns (see Hstack).

### Making, indexing and copying Categoricals (`Verif/CatNew`)

Modelled: `Categorical.__new__` of values (one or several arrays), of values or codes with categories, and of pandas Categoricals; `Grouping.__init__`, `_from_categories` and `possibly_recast`; `c[rows]`, `copy`; `from_category`, `from_bin`, `isnan`, `isnotnan`, `invalid_set`; comparisons with one label. Values are of any linearly ordered type. Specification: rows show a label, nothing (filtered) or a code without category; the categories are the values of the rows that pass. The C++ parts (`MultiKeyGroupBy32`, `LexSort32`, `ismember`) are definitions of their documented results. Not modelled: float codes (Matlab), dictionaries and enums as categories (see Cat for mappings), NaN values, unicode and bytes conversion, numba options, `auto_add` beyond its being lost.

### Functions of arrays (`Verif/NpOps`)

Modelled: `where` (numbers, Categoricals), `get_common_dtype`, `min_scalar_type`, `logical_find_common_type`, `unique` (arrays, lists, Categoricals), `FastArray.map`, `map_old`, `count`, `sample`, `mask_and` and its relatives with memory (arrays may be given several times), `cat2keys`. Specification: `Spec.lean` has the numbers that a type can hold, choice row by row, different rows with first rows, positions and numbers, and the meaning of the masks. Conversion to a type is any function that gives numbers of the type and keeps those it can hold. C++ parts (`Where`, `ismember`, `CombineAccum2Filter`, the mask operations on two arrays) are definitions of their documented results. Not modelled: strings, dates and bytes in `where`, `where` of Categoricals with several keys, complex numbers, NaN, `unique` of changed Categoricals and with a filter on Categoricals (these are regrouped first).

### Arrow (`Verif/Arrow`)

Modelled: `FastArray.to_arrow`, `from_arrow`, `_from_arrow` (integers, floats, bools, text, fixed-size binary, chunks, `zero_copy_only`, `auto_widen`), `Categorical.to_arrow`, `from_arrow` (one key, several keys, mappings), `Date`, `DateTimeNano` and `TimeSpan` `to_arrow` and `_from_arrow`, `Dataset.to_arrow` and `from_arrow`. An Arrow array is a list of `Option`s (null is `none`) with its type. pyarrow is modelled by its documented results: `fill_null`, `cast` (raises if a value does not fit), `to_numpy`, `DictionaryArray.from_arrays` (raises if an index is out of range), `buffers` (ignores slices). Not modelled: decimals, lists, `writable`, `preserve_categoricals`.

### pandas (`Verif/Pandas`)

Modelled: `fastarray_to_pandas_series`, `pandas_series_to_riptable` (integers, object columns, text, Categoricals with one key, DateTimeNano, TimeSpan, Date), `Dataset.to_pandas`, `Dataset.from_pandas`. pandas is modelled by its documented results: `IntegerArray`, `fillna`, `Categorical.from_codes` (raises for codes out of range and repeated categories), conversion of series to numpy, `reset_index`. Not modelled: nullable booleans and floats, `unicode=False`, multi-level indices, Categoricals with several keys or mappings. Integers become float64 by any rounding that is exact up to 2^53.

### DateTimeNano objects (`Verif/NanoObj`)

Modelled (rt_datetime.py): making arrays, `__getitem__`, `copy`, `shift`, views (`__array_finalize__`), `set_timezone`, `astimezone`, `min`, `max`, `fill_invalid` and arithmetic as far as objects and time zones go, `hstack`; the scalar class with `isnan`, `repeat`, `tile`, `+`, `-`; `start_date`. `TimeZone` objects are entries of a store, objects hold references; the state machine runs any list of calls. Specification: families of objects and the zone of every object, computed from the calls alone. The zone conversions are those of `Tz` (C33), the arithmetic that of `DateOps` (C82). Not modelled: writing to values through views, strings, matlab days, scalars of the other classes.

### Columns, rows, functions and matrices of a Dataset (`Verif/DsOps`)

Modelled (rt_dataset.py): `_check_addtype`, `_possibly_convert_array`, `_check_add_dimensions` with the number of rows, `_deleteitem`, `head` and `tail` as far as they change `_nrows`, as steps of a state machine with exceptions; object arrays cell by cell (floats in thousandths, Python's `int(text)`, `float(text)`, `str` are parameters); `iterrows` and `asrows` with the objects they give in a store; `apply`, `imatrix_y`, `add_matrix`, `gbrows`. Specification: `meant` says which column a value means, `put` where it goes, `row` what a row is. Not modelled: arrays of several dimensions, Dataset values, bytes and encodings, `as_matrix`, `outliers`; rounding of whole numbers above 2^53 in object arrays that begin with a float.

### Calculating with arrays (`Verif/Ufunc`)

Modelled (rt_fastarray.py): the types in which `__array_ufunc__` calculates functions of two arrays, of an array and a Python integer, and with `out=`; `_ASTYPE`; the filtered reductions as parallel loops (`prange`: any list of chunks whose concatenation is a permutation of the rows) with 64-bit wrap-around; the choice between C++ and numpy in `_reduce_check` for `ddof` and `axis`. Types of numbers and what they hold are those of `NpOps`. Contracts: C++ calculates two arrays of a type in that type; conversions keep valid numbers that the new type can hold and give numbers of the new type; numba adds int64 and uint64 as float64; numpy's nan functions know no missing integers. Specification: exact arithmetic on rationals, `passing`/`present` for the rows that count, `IsVariance` by the sum of squares. Not modelled: the operators (taken over in C++ by `BasicMathHook`), division, powers, strings, rounding of float sums, arrays of different lengths.

### Filters and stacks of .sds files (`Verif/SdsStack`)

Modelled (rt_sds.py): `_convert_to_mask`, the handling of filters in `decompress_dataset_internal` with and without `share`, `_make_zero_length`; saving a Dataset as arrays, categories and meta data; `_multistack_items` and `_multistack_categoricals` with `merge_cats` and `hstack_groupings` (from `Cat/Stack`, `Cat/StackMap`), the gap filling, the width of the new codes. Contracts (C++, not in the repository): the reader keeps the rows where the mask is True; `rc.MultiStackFiles` concatenates the arrays of one name in the order of the files, with invalids for files without the column and nothing for files without an array of categories, and gives the cumulated lengths; nothing is assumed about the reader for an empty mask. Specification: Datasets as named columns with the meaning of their integers (`cellOf`, `Table.shows`). Simplified: one invalid integer for all widths; several category arrays of a multi-key Categorical are one array of tuples. Not modelled: filters of stacks, `include`, folders, threads, files with several Datasets.

### Showing times (`Verif/TimeShow`)

Modelled (rt_datetime.py): `_add_nano_ext`, `display_item_clock`, `format_nano_time` (long format), `DateTimeCommon._strftime`, `TimeSpanBase._strftime`, `hhmmss`, `display_item_unit`, `_display_resolution`, `clock_format_short`. A float64 is a rational number; float64 arithmetic is any function to the nearest number of 53 binary digits (`Nearest`; ties as one likes; overflow and underflow left aside; `nearest_exists` shows there is one). Contracts (Python, not in the repository): `time.gmtime` takes the whole second below a float, `strftime` writes fields of fixed width, `datetime.fromtimestamp` rounds to microseconds (`MicroOk`), the calendar and the offsets of zones. Specification: readings of texts (`SpanReads`, `StampReads`, `ClockReads`), proved unambiguous for spans. Not modelled: NaN ("Inv"), the short and medium formats, TimeSpans of 2^62 ns and more (where `item / 1e9` can round up to the next second).

### Flattening folders (`Verif/Flatten`)

Modelled: `sds_flatten` (rt_sds.py:368-504) as a list of operations of the disk (move a file to the main folder, remove a folder, rename), planned for each subfolder before its first move; `flatten d` are all disks it goes through, so an interruption leaves one of them. `os.rename` is one step and puts a file in the place of another (POSIX; on Windows it raises instead), raises if the place is a folder; `rmtree` of the emptied folder is one step. Names are lists of characters, `sds_endswith` in any case of letters. Specification: `Disk.contents`, the documented `Place` of a file, `Flat`. Not modelled: links, permissions, other processes, the warnings and the printed list.

### Decayed sums (`Verif/Ema`)

Modelled: `ema_decay` and its three numba loops (rt_fastarraynumba.py:506-691) on one-dimensional arrays. Numbers are floats without rounding: an ordered commutative ring with two infinities and NaN; the exponential is a parameter `E a b` that may be infinite or NaN. The theorems ask for the two laws of `exp(-rate*(a-b))` (`Weight`; shown for real exponentials in `exp_weight`). Specification: `decayedSum` over the observations. Not modelled: rounding, overflow of sums, conversion to `dtype`, invalid markers of integers (counted as numbers by the code).

### Comparing Structs (`Verif/StructCmp`)

Modelled: `_struct_compare_check` (rt_struct.py:873-934) with `Struct.__bool__` and `Struct.all`, for ints, floats with integer values, texts, None, arrays of integers with numpy broadcasting of single elements, and nested Structs; the attributes that `hasattr` sees on the right. What an array answers to a value it cannot be compared with is a parameter. `bool` of an empty array is False (numpy before 2.2; pyproject asks for `numpy >=1.23`). Not modelled: NaN, Datasets on the left (they have their own comparison).

### Reading CSV files (`Verif/Csv`)

Modelled: the four loops of `load_csv_as_dataset` (rt_csv.py:101-145) on rows of fields, with `Dataset(dict)`, `from_tagged_rows`, `from_rows` (from `Verif/Make`) and `col_move_to_front`. Specification: `Make.HasRows` of the converted rows. Not modelled: `csv.reader`, encodings, version 4 (pandas), names that are no identifiers, files without a header line.

### `Struct.equals` (`Verif/StructEq`)

Modelled: `Struct.equals` (rt_struct.py:3848-3907) for arrays as memory (kind, width, bit patterns), numbers, NaN, texts and nested Structs; the checksum is a parameter. Not modelled: lists, tuples and other objects in Structs, arrays that are not contiguous, `equals` with a dictionary (it is made a Struct first).

### Numpy files (`Verif/NpIo`)

Modelled: `write_dset_to_np` and `read_dset_from_np` (rt_io.py:12-71) on a new folder; `os.listdir` gives any permutation. Not modelled: names with `/`, file systems that fold case, object arrays (numpy pickles them and refuses to load).

### Stacking Structs (`Verif/StructStack`)

Modelled: `_hstack_struct` (rt_hstack.py:273-385) reached from `Struct.hstack` / `concat_structs`: collecting by class, both passes, `col_move_to_front`. What `hstack` does for a riptable class is a parameter, so nested Structs and Datasets are covered by instantiating it; `hstack` of plain arrays is numpy's. Not modelled: warnings, conversion of dtypes while joining, arrays of more than two dimensions.

### Rows of matrices, str_replace, conversions, ismember of Categoricals (`Verif/Take2`, `Verif/Conv`, `Verif/MemberCat`)

`Take2`: `mbget` with `_mbget_2dims` (rt_utils.py:591-733), with the multiplication in 64 bits, `np.repeat`, `tile` and `reshape` as they are; `rc.MBGet` of one dimension is a definition, counting from the end is a parameter. `str_replace` (rt_utils.py:1055-1086) on top of the Categoricals of `Verif/CatNew`. `Conv`: `Utils/conversion_utils.py:28-203` and `Dataset.as_matrix`; the Datasets of `dset_dict_to_list` live in a heap, so that the same Dataset under two keys can be expressed. Not modelled: copies and views, `possibly_convert_to_nanotime`, matrices as columns. `MemberCat`: `ismember` with Categoricals (rt_numpy.py:989-1079, 1259-1305), the C++ fix-up as a definition by its comments.

### Saving Categoricals, columns of merges, paths of saved files (`Verif/CatSds`, `Verif/MergeKeys`, `Verif/SdsPath`)

`CatSds`: what a Categorical writes besides its codes (`_meta_dict`, `_build_sds_meta_data`, the columns and the version) and what `_load_from_sds_meta_data` makes of it; the arrays themselves are kept by the file (the format is in `Verif/Sds`). `MergeKeys`: `_extract_on_columns`, `_create_column_valuesets`, `_verify_join_keys_compat` and the beginning of `merge2`; `np.can_cast` is a parameter. `SdsPath`: the path that `save_sds` looks at and the path that it writes, and the prompts; what the user types is a list of texts, "/" is the only separator. Not modelled: `.` and `..` in paths, folders made on the way, `_root.sds`.

### Patterns in texts, aligned Categoricals, parts of pandas Categoricals (`Verif/Regex`, `Verif/CatAlign`, `Verif/PdCat`)

`Regex`: the decorator of the string functions (binding of arguments), `regex_match`, `regex_replace`, `extract` and `label_filter`; Python's `re` is a parameter that gives what a search finds, `unique` is a parameter with its contract. `CatAlign`: `categories_equal`, `align` (with the stacking of `Verif/Cat/Stack`) and `normalize_keys`; making a Categorical from an array is a parameter with its contract. `PdCat`: `categorical_convert` with texts and integers as categories.

### Nested Structs (`Verif/StructTree`)

Trees of Structs and Datasets with arrays of texts, Categoricals and other items: `key_search`, `make_categoricals`, `make_struct_from_categories`. A search of a pattern is a predicate on keys; making a Categorical of texts is a parameter with the contract that it shows the texts.

### Tables shown as text (`Verif/Show`)

Which rows and columns of a Dataset are shown, and the lines of text: `build_row_mask`, `build_column`, `fit_max_columns`, `all_columns_console`, `fix_repeated_keys`, `fix_multiline_headers`, `build_transposed_columns`, `DisplayConsoleTable` and `_prepare_display_data`. Cells are texts already; colours, HTML and callbacks are not modelled.

### Functions of groups with several results (`Verif/ApplyOut`)

The parts of `apply_helper` that `Verif/Grp` leaves out: user functions that return tuples, lists or arrays, and a dict as `dtype`, which allocates named outputs the function fills in place. The packing is that of `Verif/Grp`. Not modelled: `showfilter`, tuples of one entry, functions that raise on the tuple path. Entries that were never written are `none`.

### Loading by path, by list and by stack (`Verif/SdsLoad`)

What `load_sds` reads for one path, for a list of files and directories, and with `stack=True`: the files, their order, the names and the options of each call. The disk is two predicates on paths; reading is a parameter. Not modelled: shared memory, `info`, `threads`, `reserve`, bytes and path-like objects; what the C++ reader does with the options (see `Verif/SdsStack`, `Verif/Sds`).

### The chain of group keys (`Verif/GbKeys`)

`GroupByKeys` as a state machine with all its requests: keys with and without a new sort flag, the filtered bin, the order, `unsort`, copies. `Verif/Grp` (C54) has the part that results of a Categorical use. `lexsort` is a parameter with the contract that it sorts whatever rows it is given, the filtered bin too. What a user knows of a history (display flag, keys given out sorted, bin asked for) is the Spec; an invariant ties it to the state. Not modelled: labels, text against bytes.

### Schemas (`Verif/Schema`)

`apply_schema` and `_type_str` over trees (mutual inductive types for Structs with their elements, and for schemas with their contents). The Spec says as inductive relations which deviation stands under which path; the model walks the tree. Not modelled: stewards and details (like descriptions), `Doc` and printing.

### Sizes of Structs (`Verif/Sizes`)

`total_sizes` as its loop over a stack of pending Structs, on a heap in which Structs may hold each other in any way. The invariant ties the stack and the set of seen objects to the Structs done; the end after one step more than there are Structs follows from it. Identities and bytes of arrays are given with the items. Not modelled: how numpy sets `base`.

### Making Datasets of dictionaries (`Verif/DsNew`)

`Dataset.__init__` of a dictionary: the check of names, the conversion of each entry, the name `col_set_value` uses, and the check of the rows at the end. What is a valid name and how names are capitalised are parameters. C346 ties it to the model of assignments in `Verif/DsOps` (C226, C227). Not modelled: pandas, record arrays, arrays of several dimensions.

### Matlab columns as Categoricals (`Verif/Matlab`)

`Struct.make_matlab_categoricals` as a loop over the arrays of texts, with `col_remove`, `col_rename` and `col_set_value` on a list of named items; names are lists of characters, so that the prefix is really put before them. Which names are attributes of the class and which are valid are parameters. `RemoveTrailingSpaces` (C++) is its documented result, spelled out for one text. Not modelled: indices as floats, texts as a single string, the sort list of columns.

### Bad rows and columns of cross tables (`Verif/AccBad`)

`badrows` and `badcols` of `Accum2` calculations, on top of the cells, matrix and totals of `Verif/Accum` (C65, C66): the numbers or the mask for bad slots, the totals from the cells with the masks put in and back, the display order, the totals from the data with the combined filters, and what happens to an array given as argument. Not modelled: negative numbers, the display of bad rows, functions given by the user.

### Loading HDF5 files (`Verif/H5`)

What `load_h5` does with the result of the package `hdf5`: the names of columns (`_possibly_escape_colname`), the columns of a dictionary of arrays, `fixblocks` and `drop_short`. Keywords, names of attributes and `str.capitalize` are parameters. Not modelled: reading the file, record arrays, nested objects, the choice between Dataset and Struct, warnings.

### Record arrays and numbers of bits (`Verif/RecArr`)

`Dataset.as_recordarray` (the types of the fields and the casts of times, days and spans; `np.core.records.fromarrays` by its documented result) and `bitcount` of scalars (Python's `bin`), compared with the two's complement bits that the C++ routine counts in arrays. Not modelled: blanks around names, spans beyond 64 bits.

### Taking columns out of Structs (`Verif/ColPop`)

`Struct.col_pop` with `_extract_indexing`, the column side of `_mask_get_item` and `Struct.__getitem__`, on the Structs of `Verif/Struct`. Not modelled: bytes, slices other than `:`, numpy arrays as arguments, pairs of rows and columns, and columns that have the name of an attribute of the class.

### Reductions of TimeSpans (`Verif/SpanRed`)

The reductions that `TimeSpan._reduce_func_builder` makes, on spans as rational numbers of nanoseconds with NaN. The reductions of FastArrays are taken by their documented results. Not modelled: `std`, rounding, `axis`, and the reductions of FastArrays in C++.

### Filling with invalids (`Verif/FillInv`)

`fill_invalid` of FastArray, Date, DateSpan, DateTimeNano, TimeSpan and Categorical with `INVALID_DICT`, for arrays of one dimension as state. Specification: which values are invalid by class and type. Not modelled: arrays of objects, types that are not given as strings.

### Pickling (`Verif/Pickle`)

`__reduce__` of FastArray and of the classes of dates and times with the functions that rebuild them (rt_fastarray.py:844-874, rt_datetime.py:2551-2571, 2878-2897, 5007-5060, 7294-7322). The compressor of riptide_cpp is a pair of functions, the second undoing the first. Not modelled: Categoricals, two dimensions, subclasses written by users, the byte format of pickle.

### Statistics (`Verif/Stats`)

`rt_stats.py`: `statx` (least, largest, mean and the counts), `winsorize`, `r2`, `mae`, `class_error` and `lm` with the R2 it prints, over rational numbers. `np.linalg.solve` is a parameter whose results solve the equations. Specification: sums of squared errors by an inductive relation over the rows. Not modelled: rounding errors, percentiles, the other statistics `lm` prints, `linear_spline` (it draws a plot), several columns Y.

### Dates from matlab (`Verif/MatDate`)

`Date._convert_matlab_days`, `DateTimeNano._convert_matlab_days` and `TimeZone.to_utc` with a mask, over rational numbers. Specification: 1 January of the year 0 is day 1 (`datenum`, over the calendar of `Calendar/Spec`), wall clocks of `Tz/Spec`. Not modelled: rounding of floating point numbers (a datenum has a precision of about 10 microseconds), overflow.

### Outliers (`Verif/Outlier`)

`Dataset.outliers` and `_apply_outlier`. `nanargmin` and `nanargmax` (riptide_cpp) are parameters. Specification: `Describes`, the columns of the result row by row against the columns given. Not modelled: the common type of the values, labels, what riptide_cpp returns for a column of NaN only.

### Grouped fills of numba on whole columns (`Verif/GrpFill`)

`grpFillForward`, `grpFillBackward` and `grpFillForwardBackward` with their numba loops. Specification: last value up to a row, first value from a row on, as positions in the list of values of the group. Groups are lists of rows; threads write different rows (see `Par/Lemmas` for why order does not matter then). Not modelled: numba itself. The methods call the compiled functions through the instance, and whether numba then passes the instance as an argument is outside the repository; the theorems are about the loops.

## Disagreements found

Each entry: what the code does, witness theorem.

1. `cummax` on signed and `cummin` on unsigned integers with `skipna=False`: an
   invalid does not stick.  `Verif.Cum.cummax_signed_noskip_counterexample`,
   `cummin_unsigned_noskip_counterexample`.
2. Left join, `keep=('first', None)`, null left keys and repeated right keys: the two
   row selectors have different lengths.  `Verif.Merge.keep_left_null_counterexample`.
3. Inner join, `keep=('first', None)`, all left keys null and repeated right keys:
   raises (minimum of an empty array, `rt_merge.py:1155`).
   `keep_left_all_null_counterexample`.
4. Outer join on several key columns with `keep` on the right: off by one at
   `rt_merge.py:1474-1475` loses an unmatched row and repeats a matched one.
   `outer_multikey_keep_counterexample`.
5. `merge_asof` accepts unsorted right columns beyond the visited part
   (right `[1,10,2]`, left `[5]`) and unsorted left columns when the right is empty.
   `asof_unsorted_right_accepted_counterexample`,
   `asof_unsorted_left_accepted_counterexample`.
6. `merge_asof` rejects sorted float columns that start with `-inf` (backward) since
   `get_min_valid` is the least finite value.  `asof_rejects_below_min_valid`.
7. `col_str_replace` compares new names only with existing ones: replacing "x" by ""
   in "xa", "ax" leaves one column.  `Verif.Items.str_replace_counterexample`.
8. Shallow copies share attribute objects: removing or setting labels (or any column
   attribute) on the copy changes the original.  `shallow_copy_label_counterexample`.
9. Selecting columns (`ds[['y']]`) renumbers labels in the shared attribute objects, so
   the *original* can lose a label.  `column_subset_label_counterexample`.
10. A deep copy drops attributes whose name is a substring of "copy"
   (`ATTRIB_EXCLUSION_LIST` is a string, `in` is a substring test).
   `copy_drops_attribute_counterexample`.
11. `col_map` when none of the new names exists renames one by one in dictionary order:
   with the single column `a`, `{a:b, b:c}` moves `a` to `c`.
   `Verif.Struct.col_map_direct_chain_counterexample`.  With a missing old name it raises
   after renaming others: `col_map_not_atomic_counterexample`.
12. `_ncols` drifts: `st.shape = x` (a property) adds an uncounted column `Shape`,
   `setattr(st, 'class', x)` counts `Class` each time, `col_set_value` does not count,
   `col_str_replace` that merges names still counts both.  `ncols_property_counterexample`,
   `ncols_keyword_counterexample`, `ncols_set_value_counterexample`,
   `ncols_str_replace_counterexample`.
13. A locked `Struct` can still be changed by `col_add_prefix`, `col_add_suffix`,
   `col_str_replace` and `col_set_value`.  `locked_counterexample`.
14. `nb_min` forgets everything before a NaN/invalid in a group, so it depends on the row order; `nb_sum` adds integer invalids.  `Verif.GbNumba.nb_min_nan_counterexample`,
   `nb_min_invalid_counterexample`, `nb_sum_invalid_counterexample`.
15. Grouped `fill_forward`/`fill_backward` (and `nb_ema`) never write the rows of bin 0 when not in place: filtered rows of the result are uninitialised memory.
   `grouped_fill_filtered_counterexample`.
16. `_numbaEMA` reads `iGroup[start]` for empty groups; for an empty last group that is past the end of the array (no bounds check in numba).  `ema_empty_group_counterexample`.
17. **C10** Two common key columns: their order in the result is the iteration order of a Python set of strings, so it changes with the hash seed (`key_column_order_counterexample`; `rt_merge.py:420`, `:2707-2753`).
18. **C43** Crossed key names (`left_on=['a','b'], right_on=['b','a']`): the result has one column `a` that mixes unrelated data (`crossed_keys_counterexample`; `rt_merge.py:420`).
19. **C43** Different numbers of key columns: `merge2` builds a `ValueError` but does not raise it (`rt_merge.py:2627-2630`), `zip` drops the surplus key and the join runs on fewer keys (`key_count_mismatch_counterexample`).
20. **C44** `validate='1:1'` on a left join rejects two null left keys although the comment at `rt_merge.py:1828` says nulls are not considered; the same call with `how='inner'` accepts them (`validate_null_counterexample`; `:2255`).
21. The second grouping for outer merges over several key columns depends on the order of the key columns: a string column resets the null mask accumulated so far (`groupby_mask_order_counterexample`; `rt_merge.py:2055-2064`).
22. **C22, C25** Rows with an embedded NUL: `strlen`, `reverse`, `substr` stop at the NUL (`strlen_nul_counterexample`).
23. **C23** On byte arrays `contains(b"")`, `startswith(b"")`, `index(b"")`, … compare the needle with `""` only and search for a NUL (`contains_empty_bytes_counterexample`; `rt_str.py:634`, `:662`, `:708`).
24. **C24** `replace(b"", x)` is not refused and overwrites the padding (`replace_empty_bytes_counterexample`). Also, when `new` is shorter than `old` the result is wider than the input instead of narrower (`rt_str.py:791-793`; harmless, `replace_correct` covers it).
25. **C25** `substr_char_stop(stop, inclusive=True)` includes only the first character of a longer `stop` (`char_stop_inclusive_counterexample`; `rt_str.py:1253-1256`).
26. **C46** `cat.str.substr[a:]` takes the stops from the row lengths and uses them for the labels: wrong strings, or a read past the end when there are more labels than rows (`cat_substr_from_counterexample`; `rt_str.py:1433-1437`, `:1510-1512`).
27. C26: loading a Dataset that was saved with a sort set takes `arrays[0]` for the saved row order (`rt_struct.py:1628`). The arrays of a file begin with the columns (`:1229`, `:1303`; the loop at `:1658-1682` reads the columns from the same list), so the first column is stored in the sort cache as the row order. `load_sorted_exact`, `load_sorted_counterexample`. (An earlier version of this model read `arrays[0]` as the row order and found only that the direction is lost, which is also true: `_sort_ascending` is not saved.)
28. C26: the cache is keyed by checksums only. If `crc64` sees only bytes, replacing a column by one of another type with the same bytes keeps the old order. `dtype_blind_crc_counterexample` (depends on the C++ `crc64`, which is not in the repository).
29. C47: `_copy_attributes` reads `self.sort_ascending` (`rt_dataset.py:712`); the attribute is `_sort_ascending`. Copying, slicing or subsetting a Dataset after `sort_view('a')` raises AttributeError. `copy_after_sort_view_counterexample`.
30. C47: `_copy_attributes` pairs `_col_sortlist` with `_sort_ascending` (`:714`), but the directions are stored reversed. A column subset is sorted in the wrong directions. `subset_directions_counterexample`.
31. `hstack` of Categoricals in mapping mode does not check for conflicts: a code with two labels silently takes the first one, a label with two codes leaves the rows of one code without a label, and after `mapping_replace` the old label comes back (`hstack_code_conflict_counterexample`, `hstack_label_conflict_counterexample`, `hstack_after_replace_counterexample`; rt_hstack.py:662-693).
32. `hstack` of base-0 Categoricals gives rows of code -1 (from `category_remove`) the last category (`hstack_base0_filtered_counterexample`; rt_grouping.py:404).
33. After `category_remove`, or `category_add` followed by `category_replace`, `c[i]` decodes with the old list (`remove_items_counterexample`, `add_replace_items_counterexample`; known as xfail tests in the repository); `category_replace` cuts long labels to the item width, which may duplicate a category (`replace_truncates_counterexample`; rt_categorical.py:1166).
34. `c[i] = new_label` with automatic creation labels every filtered row as well, since code 0 (or -1) indexes the inverse array from the end (`setLabel_new`, `filtered_relabelled_counterexample`; rt_categorical.py:4343); afterwards `c[i]` gives `!<code>` (`set_then_get_counterexample`); codes are not widened (`code_overflow_counterexample`); `c[last_label] = new_label` raises after the category was added (`set_label_raises_counterexample`, stale length at :4514).
35. `mapping_add` accepts a label that another code has, `mapping_replace` keeps the old label in the reverse dictionary, and `mapping_remove` may raise KeyError after it changed the mapping (`duplicate_label_counterexample`, `replaced_label_stale_counterexample`, `remove_keyerror_counterexample`; rt_categorical.py:1050-1098).
36. Filtered rows are smaller than every label in `<` and `<=`, `Grouping.isin` answers for the last category, `count(transform=True)` gives them the last group's count (`filtered_less_counterexample`, `filtered_isin_counterexample`, `filtered_count_counterexample`).
37. Base index 0: `count(transform=True)` is off by one and shows an invalid count for the last category (`count_base0_counterexample`; rt_grouping.py:3543), `expand_dict` shifts all labels (`expandDict_base0_counterexample`; rt_categorical.py:6165), comparing two Categoricals with different categories treats the first category as filtered (`compare_base0_counterexample`; :4766, base index not passed).
38. `hstack_dict` chooses the integer type of the codes from the number of rows: 127 empty items followed by an item with one row give code -128 (`hstack_dict_overflow_counterexample`).
39. `rt_utils.quantile` slices `arr_sort[notvalid:-1]` for signed integers with invalid entries: the largest valid entry is dropped and high quantiles are NaN (`quantile_exact`, `quantile_signed_counterexample`). `describe_helper` does not have this error.
40. C32: `Date` fields after 2099 and before 1970 come from the ends of the tables: 2100-01-01 has year 2099, negative day numbers year 1969. `Calendar.date_2100_counterexample`, `date_1968_counterexample`. A Date array of length one with a negative day is masked as invalid, a longer one is not (`date_negative_length_counterexample`).
41. C33: `searchsorted` is called with its default side, so the switch instants themselves still count as before the switch: 03:00:00.000000000 local time on the day daylight saving time starts in New York is displayed as 02:00 (`Tz.local_round_trip_nyc_counterexample`), Dublin 02:00 as 03:00 (`local_round_trip_dublin_counterexample`); 02:00 standard time on the last day, which is unambiguous, is converted to an instant an hour early (`utc_round_trip_counterexample`).
42. C33: `is_dst` of a DateTimeNano displayed in GMT, UTC, Tokyo or Kolkata uses the table of `from_tz` (documented: False for GMT). `Tz.isDst_gmt_counterexample`.
43. C49: `DateTimeNano.day_of_month` takes the year from the local time but the day from UTC: 2019-01-22 20:00 in New York gives 23, 2018-12-31 20:00 gives 32. `Tz.day_of_month_counterexample`.
44. C49: `DateTimeNano.minute` uses the UTC time, wrong by 30 minutes in Kolkata (`Tz.minute_kolkata_counterexample`); `date()` does not shift in zones without a table, giving the previous day before 09:00 in Tokyo (`Tz.date_tokyo_counterexample`).
45. C50: the tables end in 2040: later summers in New York are standard time, Sydney stays in daylight saving time for ever. `Tz.nyc_2041_counterexample`, `sydney_2041_counterexample`. (Outside the proofs: before 2008 the Sydney table applies the rule of 2008 and does not agree with history.)
46. C51: `Grouping` remembers the packing of the last filtered computation. After `c.median(x, filter=f)` (any packed computation) `iter_groups`, `ncountgroup`, `igroup`, `as_filter`, `first_fancy` list only the rows that passed `f` (`listing_counterexample`); `rt_grouping.py` `pack_by_group` with `_packedwithfilter`.
47. C51: `first_fancy`/`last_fancy` (and `first_bool`/`last_bool`) of a group without rows give the row of another group (`first_fancy_counterexample`).
48. C52: `apply_reduce` keeps the dtype of the first result of the first column for all later groups and columns: the float results of the second column are truncated to integers (`applyReduce_dtype_counterexample`); `rt_grouping.py:2700-2801`.
49. C52: `apply_reduce` and `apply_nonreduce` call the user function on the filtered rows: an exception there fails the whole call, and the dtype may be chosen by it (`applyReduce_filtered_counterexample`).
50. C53: `apply` decides by `len(result) == number of callbacks` whether the result has one row per group. A function that drops rows can hit this by coincidence, and rows are labelled with the wrong group (`apply_mislabels_counterexample`).
51. C53: `apply` with a group without rows and sorted display always raises (`apply_sorted_gaps_raises`).
52. C54: `apply_reduce(..., showfilter=True)` uses keys without the filter label: it raises, or with one group labels the filtered rows as that group (`showfilter_reduce_raises`, `showfilter_reduce_counterexample`).
53. C55: with `transform=True` filtered rows get the value of the last group (index -1) instead of the invalid value; base index 0 and enum Categoricals get the value of the next group (`transform_counterexample`); the deprecated `.transform` property with sorted display but `Ordered` false mixes up the groups.
54. C56: `shrink(newcats, misc)` computes the code of `misc` as the largest match plus one; if the last new category is not an old one, rows get the label of a new category (`shrinkMisc_counterexample`), and if none matches the codes are garbage (`shrinkMisc_none_counterexample`). The enum branch uses `newinstance` before assignment.
55. C59: `count_uniques` on a base index 0 Categorical shows every count one group early and loses the first (`countUniques_base0_counterexample`).
56. **C61** `_validate_and_normalize_tolerance` converts the tolerance to the dtype of the `on` columns. With numpy before 2.0 (the project asks for `>=1.23`) an integer tolerance beyond that range wraps: 300 on `int8` keys becomes 44, so rows at distance 100 are not matched (`normTol_wrap_counterexample`).
57. `rt_bin.quantile` with `interpolation_method` `lower` or `higher` raises IndexError at every fractional position: `np.floor`/`np.ceil` return floats that are used as an index (`rt_bin.py:118-121`). `binQuantile_lower_counterexample`.
58. `cut`/`qcut` accept exactly two equal edges with `duplicates='raise'` (and keep both with `drop`): `len(unique_bins) < len(bins) != 2` is a chained comparison (`rt_bin.py:350`). `cut_duplicates_counterexample`.
59. `Accum2` totals of mean, median, var, std... (`rt_accum2.py:661-762`) are not put into display order: with row labels sorted for display, totals stand beside the wrong labels (`accum2_multi_sorted_counterexample`).
60. The same totals include rows of data whose other label is filtered, which are in no cell (`accum2_multi_filtered_counterexample`).
61. `_accum1_pass` (`:512-513`) adds one to the codes of base-0 Categoricals although `Grouping.ikey` has already done so; totals are shifted by one label (`accum2_multi_base0_counterexample`).
62. `Accum2.min`/`max` margins are NaN as soon as one cell of the row or column is empty (`accum2_min_counterexample`).
63. With `showfilter=True` the 'Filtered' column of `make_dataset` (`:393-399`) is not put into display order (`accum2_filtered_column_counterexample`).
64. A column label equal to the name of the totals column (e.g. 'Sum') is overwritten by the totals (`accum2_name_counterexample`).
65. `Accum2.__getitem__` looks up codes in labels in display order (`getItem_sorted_counterexample`).
66. A saved and loaded `Accum2` has rows and columns exchanged (`loadAcc_exact`, `loadAcc_counterexample`).
67. `_find_lossless_common_array_type` (`rt_numpy.py:479-487`) refuses a coercion only if *all* values are out of range, and never looks at fractions: `rt.ismember([1.5, 2.0], [1, 2])` finds 1.5 (`ismember_truncates_counterexample`).
68. The same for int64 and uint64: 2**64-2 is found as -2 if one value is in range (`ismember_wraps_counterexample`).
69. `ismember(..., base_index=1)` ignores the base index for empty arrays, for a list of one key and for several keys (`ismember_base_counterexample`).
70. `Categorical.isin` converts a list to the type of numeric categories, so fractions match the truncated label (`catIsin_counterexample`).
71. `Dataset.duplicated(keep='last')` uses the last *position in the packed order* of the last group as a row number (`result[ilast]` lacks `igroup[...]` for the last group): rows a, b, a mark the single b (`duplicated_last_counterexample`); `duplicated_last_exact` says which rows are marked.
72. `duplicated` with a Categorical whose last category is unused raises IndexError (`duplicated_unused_counterexample`).
73. `duplicated(keep='last')` subtracts 1 in place from `iFirstGroup`; with a packed Categorical as key this is the array of the Categorical itself, whose groups are wrong afterwards (`duplicated_corrupts_counterexample`).
74. `drop_duplicates(keep=False)` reads `gb.count().Count`; a key column called `Count` replaces the counts (`dropDuplicates_count_counterexample`).
75. `drop_duplicates(inplace=True)` returns another object when nothing is dropped (`dropDuplicates_inplace_counterexample`).
76. `Dataset.tail(0)` is `self[-0:]`, all rows (`tail_zero_counterexample`).
77. `Dataset.__setitem__` is not atomic: a Dataset with too few columns is stored column by column until IndexError (`setitem_error_counterexample`).
78. `ds[0, ['a','b']] = ds2` with a Dataset of two rows passes the test `len(value) == len(col_idx)` and iterates over its column *names* (`setitem_names_counterexample`).
79. `Dataset.melt` overwrites an id column that has the name of the value or variable column: the column is lost silently (`melt_name_counterexample`).
80. `Dataset.pivot(labels=None)` calls `labels_get_names`, which does not exist: AttributeError instead of the label columns (`pivot_nolabels`).
81. `Dataset.pivot` with a filter: excluded rows go to bin 0, and two of them look like duplicates if bin 0 is counted (`pivot_filter_counterexample`, parameter `count0`).
82. `Dataset.pivot` joins key values with `_`: ('a_b','c') and ('a','b_c') give one column, the later values overwrite the earlier (`pivot_name_counterexample`); a key value equal to a label name overwrites the label column (`pivot_label_counterexample`).
83. `Dataset.from_rows` with a repeated column name loses the earlier column silently (`fromRows_names_counterexample`); without names all rows are dropped (`fromRows_nonames_counterexample`).
84. `Dataset.from_tagged_rows` compares only how often each key occurs: `[{'a': 1}, {'b': 2}]` becomes one row (`fromTagged_counterexample`), and a row without keys disappears (`fromTagged_empty_counterexample`).
85. `Dataset.from_jagged_rows` with a row of unicode strings raises TypeError: `width /= 4` makes a float, so the type is spelled `U3.0` (`fromJagged_unicode`).
86. `Dataset.from_jagged_rows` with byte strings and a fill value of bytes (or unicode and str) never assigns `inv`: UnboundLocalError (`fromJagged_fill`). A fill value longer than all strings is cut (`fromJagged_cut_counterexample`).
87. `Dataset.from_jagged_dict` is documented to name the column of a key with scalars by the key; a number is appended (`jaggedDict_name_counterexample`). Names can clash across keys (`jaggedDict_clash_counterexample`).
88. `Dataset.from_jagged_dict(stacked=True)` with an empty list: a column whose total length happens to equal the number of output rows is returned unstacked (`stacked_empty_counterexample`); otherwise 0/0 raises ValueError (`stacked_empty_raises_counterexample`).
89. `Dataset.trim` when all columns are bad raises IndexError instead of returning an empty Dataset (`trim_allbad_counterexample`); with a label column all rows stay (`trim_rows_counterexample`).
90. `Dataset.trim` multiplies (and `keep` adds) masks in place into what the test returned for the first column; a test that returns the column changes the Dataset (`trim_inplace_counterexample`).
91. **Footers of a slice are those of the original** (C80). A slice, a column selection and a shallow copy keep the attribute objects, so `footer_set_values` on a slice changes the original's footer (`slice_writes_through`, for every Dataset, `slice_shares_counterexample`), and `footer_remove()` on it empties the original's values while its labels stay (`slice_remove_counterexample`).
92. **`sort_copy` raises for every Dataset with footers** (C80). `_footers` has `None` values (`rt_dataset.py:5678`) and `sort_copy` calls `item.copy()` on them (`:4125`): `AttributeError` (`sortCopy_raises_iff`). Had it not raised, the values would be lost, since the new Dataset is made from the arrays.
93. **`footer_remove(['a', 'a'])` raises `KeyError`** after the values are removed (C80, `remove_twice_counterexample`).
94. **`footer_remove(label, columns)` over every column keeps the label** (C80): an empty footer row stays (`remove_columns_keeps_label_counterexample`). The documentation of `footer_set_values` says `ValueError` for an unknown column; the code raises `IndexError`.
95. **A column of NaNs is not noticed by `equals`** (C81). For a column only one side has, the NaN table of that side is taken as it is (`_operate_iter_input_cols`, `rt_dataset.py:2540-2541`), so a Dataset equals itself with a further all-NaN column, both ways (`equals_extra_nan` for every Dataset with rows).
96. **Label columns**: `&` leaves label columns of the left Dataset as they are, so a NaN in a label column of the right argument equals anything, and `equals` is not symmetric (C81, `equals_labels_counterexample`).
97. **Summary columns**: `apply_cols` renames them `Summary0`, …, the lookup by name then raises inside the `try`, and `equals` is `False` (C81): no Dataset with rows and a summary column equals itself (`equals_summary_never`).
98. **`equals(exact=True)` looks at neither names nor shape** (C81). Columns are compared by position whatever their names; numpy broadcasting lets a Dataset equal its first column alone and a Dataset of equal rows equal one row; a Dataset without columns does not equal itself (`exact_names_counterexample`, `exact_columns_counterexample`, `exact_rows_counterexample`, `exact_empty_counterexample`).
99. **C82** (`dspan_tspan_counterexample`, `dspan_nano_counterexample`) `DateSpan + TimeSpan` and `DateSpan + DateTimeNano` fill invalid entries with `DateSpan.NAN_DATE`, the int32 minimum, whatever the kind of the result (`_build_mathops_result`, rt_datetime.py 1069-1071): the result is a TimeSpan of -2.147483648 s or the time 1969-12-31 23:59:57.85, and counts as valid. The same sums written the other way round are invalid, as they should be.
100. **C82** (`tspan_sub_dspan_counterexample`) `TimeSpan - DateSpan` does not convert days to nanoseconds (6796-6799; `__add__` and `__rsub__` do): one day less is one nanosecond less.
101. **C82** (`tspan_dspan_one_counterexample`) `TimeSpan + DateSpan` with a DateSpan of one invalid entry: the mask is asked `isnan(mask)[0]` (6880), which is never True for a boolean; the marker is added as a number of days.
102. **C82** (`one_entry_counterexample`, `date_one_exact`, `dspan_one_exact`) `_apply_inv_mask` treats a first operand of one entry apart (549-554): the other operand's invalid entries are not masked; an entry ≤ 0 makes the result one invalid entry, whatever the length of the other operand, so `DateSpan([-1]) + 5` and a sum with a `DateSpan([0])` are invalid, and `Date([0]) + DateSpan([1, 2, 3])` has one entry.
103. **C82** (`inplace_one_counterexample`) In place, that same test looks at the entry after it has been changed: an invalid Date of one entry plus 5 becomes 1970-01-06.
104. **C82** (`inplace_raises_counterexample`) `date1 += date2` raises TypeError after the days have been added in the buffer of `date1` (1045-1049).
105. **C82** (`zone_counterexample`) `Date - DateTimeNano` uses midnight in the zone the times were made in (2333), `DateTimeNano - Date` midnight in GMT (5838), comparisons midnight in the displayed zone: a time equal to a date can be hours away from it.
106. **C82** (`date_nano_marker_counterexample`) A Date with the int32 minimum (left behind by `Date + nan` and by the way for one entry) minus a DateTimeNano is not invalid: the product with the nanoseconds of a day wraps around.
107. **C83** (`date_order_counterexample`) `_preserve_invalid_comparison` (824-834) masks only the first operand: a valid date or time is `>` and `>=` every invalid one, though the invalid one is not `<` it.
108. **C83** (`dspan_compare_counterexample`, `dspan_compare_exact`) Comparisons of DateSpans do not look for invalid entries: two are `==`, and each is `<` every valid one.
109. **C84** (`range_epoch_counterexample`, `start_of_month_1970_counterexample`) Day 0, 1970-01-01, is the marker of an invalid Date: it is invalid inside a range, and `start_of_month` is invalid for all of January 1970.
110. **C85** (`summary_name_counterexample`, `apply_exact`) Every operator renames the summary columns to `Summary0`, `Summary1`, … (2463-2466); a column with that name makes `ds + 1` raise ValueError.
111. **C86** (`summary_lost_counterexample`) With another Dataset the same column is overwritten without a word (2530-2541): the result has one column less.
112. **C86, C88** (`not_conform_counterexample`) If the two layouts do not conform (one label less, say), summaries and footers are dropped without a word.
113. **C85** (`fill_name_counterexample`) With a Dataset or Struct operand each column is computed in a Dataset of its own under the name `a` (2535), and `fill_value` is passed on: a dictionary by column name is ignored, and a key `a` applies to all columns.
114. **C85** (`fill_number_raises`) `fill_value=0` for a string column raises ValueError unless the Dataset has one row: the number becomes a column of length 1 (2429).
115. **C85** (`nothing_exact`) A function that works in place and returns None (as `fillna(inplace=True)`) changes the columns and then raises ValueError as soon as there is a label or a string column, since those are returned as arrays and the others as None (2453-2459).
116. **C85** (`empty_counterexample`) An operator on a Dataset without columns returns None.
117. **C87** (`shared_counterexample`) Two columns of one array: `ds += 1` adds 1 twice.
118. **C88** (`footer_stale_counterexample`) One column without a footer value makes the footer row an array of objects, which is not computable: the whole row is kept, unchanged, next to the new columns.
119. **C88** (`footer_swapped_counterexample`) Summaries named in another order than the columns are in: the footers of the summaries are swapped (2486-2496).
120. **C88** (`footer_label_counterexample`) Labels that are not the first columns: the first `num_labels` footer values are dropped, whichever columns they belong to (2474).
121. **C88** (`footer_array_counterexample`) An array added to a table with as many columns as rows is added to the footer row as well, row by column.
122. **C90** (`by_row_changes_counterexample`, `by_row_exact`) `ds.sum(axis=1)` converts the columns of the Dataset to their common dtype in place (6556, `imatrix_make()` with its default `inplace=True`): integers above 2^53 next to a float column are changed by asking for a sum.
123. **C89, C90** (`by_row_label_counterexample`, `by_column_label_counterexample`) Labels take part in `axis=0` and in `axis=1` with a fill value, and not in `axis=1` without one.
124. **C89** (`whole_counterexample`) `axis=None` with a column of texts reduces the results of the columns (6594-6595), without the keyword arguments: `count` is the number of columns, `std` is that of the standard deviations.
125. **C91** (`any_other_counterexample`) Columns of complex numbers are ignored by `any(axis=1)` and `all(axis=1)` only (3537-3553).
126. **C90** (`totals_stale_counterexample`, `totals_first`) `imatrix_y` uses the matrix made at the first request, whatever has been assigned since (2060-2070).
127. **C92** (`transpose_equal_labels_counterexample`, `transpose_header_counterexample`, `transpose_joined_counterexample`) `transpose` loses all but the last of the rows with equal labels, the names of the columns if a row is labelled like the header, and rows whose labels give the same text when joined by `_`.
128. **C93** (`text_differs_counterexample`) `differs` of numbers is True where entries are equal (as documented, CMP_EQ), of strings where they are different (4212-4213).
129. **C93** (`text_transitions_counterexample`, `text_exact`) `transitions` of strings compares the first entries with the empty string and calls them changes; for numbers they are False.
130. **C93** (`diff_zero_counterexample`, `diff_zero_exact`) `diff(0)` raises for two and more entries, and gives the invalid value for one.
131. **C94** (`nunique_bool_counterexample`) `nunique` of bools does not count False if it occurs, the sentinel listed for bools.
132. **C96** (`list_ne_counterexample`, `list_ne_all`) `c != [a, b]` joins the masks by "or" (4791), so it is True for every row, also those labelled a or b.
133. **C96** (`array_filtered_counterexample`) compared with an array, a filtered row is the sentinel, so it is smaller than valid numbers.
134. **C97** (`assign_other_ignored`, `assign_numbers_counterexample`) `c[rows] = d` with other categories writes `self.expand_array` instead of the rows of `d` (4325): nothing of `d` arrives.
135. **C97** (`assign_base_counterexample`) `categories_equal` ignores the base index, so codes with another base are copied.
136. **C98** (`mapDict_invalid_counterexample`) with a dictionary of all categories `invalid` is ignored for filtered rows; (`mapDict_filtered_counterexample`) a key "Filtered" catches filtered rows, but only if another category is missing; (`mapArray_bool_counterexample`) mapping to bools by an array raises without `invalid`.
137. **C100** (`shiftCat_base_counterexample`, `asSinglekey_base_counterexample`) with base index 0 `shift_cat` shifts in the first category, `as_singlekey` is off by one; (`asSinglekey_joined_counterexample`) joined labels can coincide.
138. **C102** (`setValidEnum_self_counterexample`) `set_valid` with a mapping overwrites the codes of the Categorical it is called on (3277-3282).
139. **C107** (`merge_inner_counterexample`, `merge_inner_exact`) an inner merge looks the keys of its rows up in left again (3126), so every row of left with a repeated key is replaced by the first one with this key: as many rows as expected, but the data of the first one in all of them.
140. **C106** (`merge_outer_null_counterexample`) a row of left with a null key gets a row in an outer merge, but without its data (`ismember` finds a null nowhere, also not in left itself).
141. **C111** (`onefile_*_counterexample`) with `onefile=True` sort columns are lost; an item `a/b` beside a container `a` ends up inside it; an item `c!x` beside a Categorical `c`, or a Categorical called `_root`, makes the file unreadable; an item called `metastring` is lost and shifts the flags, so that an array after it comes back as a scalar.
142. **C109** (`file_special_counterexample`) a Categorical whose name has a `!` makes the file unreadable.
143. **C113** (`dir_order_counterexample`) the items of a Struct that holds only Structs come back in the order in which the files are listed.
144. **C114** (`resave_*_counterexample`) saving never removes old files: containers and arrays that are gone come back, an old container replaces a new array of the same name, and a flat Struct saved over a nested one is never seen.
145. **C115** (`dir_*_counterexample`) the check for characters in file names looks only at what follows the last `!`, and only at containers that get a file: a container called `x!y` is saved without an error and lost, and so is one called `x.sds`; a container called `_root` replaces the whole Struct.
146. **C117** (`item_column_counterexample`, `item_position_counterexample`, `back_first`, `names_twice_counterexample`) a column hides the partition of the same name; a number that is the position of a column gives the column; the first partition cannot be reached by a negative position though all others can; names given twice are accepted and iteration then raises.
147. **C118** (`fileNames_single_counterexample`) the partition of the single file `20190204.sds` is called `4`: when the digits reach the beginning of the name, only one of them is taken (229).
148. **C119** (`filter_inplace_counterexample`, `sort_inplace_counterexample`, `pcat_stale_counterexample`) filtering or sorting in place leaves the borders of the partitions where they were, so rows end up in other partitions; after `set_pnames` the cached Categorical has the old names.
149. **C121** (`setItem_renames_counterexample`, `setItem_twice_counterexample`, `gen_overwrites_counterexample`) `at[name] = ds` renames the summary column and footer in the caller's Dataset; the same Dataset under two names shows the second name only and the second table raises; a label equal to the name of another table is overwritten by its totals.
150. **C123** (`accumRatio_width_counterexample`, `accumRatio_mutates_counterexample`, `accumRatio_summary0_counterexample`) categories `Numer`, `Denom`, `Ratio` are renamed in the Categorical of the caller; if no category is longer, the underscore is cut off and it raises; a category `Summary0` is replaced by the ratio of the totals.
151. **C125** (`ratiop_name_counterexample`, `ratiop_blanks_counterexample`, `accumCols_names_counterexample`) a category `TotalRatio` raises; `remove_blanks` raises if all totals are 0; `accum_cols` with fewer names than values drops values silently (`zip`).
152. **C129** (`mergeAsof_tolerance_counterexample`, `mergeAsof_nearest_unsigned_counterexample`) `merge_asof` ignores `tolerance` (the documentation says so, a warning is printed); `nearest` computes `abs(left - right)` in the type of the keys: if unsigned differences wrap around, as those of numpy do, a later key always looks far away.
153. **C131** (`first_edge_counterexample`, `midnight_counterexample`, `zero_size_counterexample`, `tuple_order_counterexample`) buckets are open on the left: the first time of the first bucket (a trade exactly at 9:30:00 with `start_time=(9, 30)`) is in no bucket, and midnight is in no bucket even with `add_pre_bucket`; a bucket length of 0 makes `cut_time` loop forever; tuples are sorted as tuples, so that edges such as `(9, 90), (10, 0)` are not in order of time.
154. **C132** (`names_counterexample`, `pre_name_counterexample`) edges a day apart have the same label; the label 'pre' is cut to the width of the other labels.
155. **C135** (`local_counterexample`, `invalid_range_counterexample`, `small_step_counterexample`) `resample` rounds in UTC: `'24H'` in New York gives 19:00 or 20:00; an invalid time counts as 1970 for the range; `'0.5N'` is a step of 0.
156. **C136** (`diff_invalid_counterexample`) `diff` subtracts the number 0 of an invalid time: the result next to it is a valid span of about 50 years, while `a - a.shift(1)` is invalid there.
157. **C138** (`op_text_counterexample`) `col_idx='ab'` uses Python's `in` on the text and also keeps a column `a`.
158. **C140** (`cat_arrays_counterexample`, `cat_keyname_counterexample`, `cat_second_counterexample`, `cat_tables_counterexample`, `gb_tuple_counterexample`) generated names can collide (eleven arrays `a` and two arrays `a1` both give `a11`), and one array is lost; an array with the name of the key is left out without a message; `c.sum(a, b)` ignores `b`, `c.sum([ds1, ds2])` ignores `ds2`; `gb.sum((x,))` ignores `x`, and `gb.sum((ds.a,))` sums all columns except `a`.
159. **C142** (`agg_counterexample`) `agg('count')` and `agg('nth')` always raise a TypeError although both are in `AggNames`; `agg({key: 'sum'})` returns only the keys.
160. **C145** (`countRows_counterexample`) with `count(transform=True)` rows in no group get the count of the last group (index -1).
161. **C146** (`attr_rows_counterexample`, `zero_rows_counterexample`) `ms.a = ds` on an empty Multiset does not set its number of rows, so that the next item may have any; Datasets without rows are accepted beside any others (`if self._nrows and ...`).
162. **C147** (`setItems_short_counterexample`, `setItems_torn_counterexample`) `ms[['a','b']] = [x]` sets `a` only; `ms[['a','b']] = [x, wrong]` raises after `a` is set.
163. **C149** (`get_one_counterexample`, `get_pos_counterexample`, `multiget_text_counterexample`) `ms[0,'b']` raises (a number cannot be put into a Multiset); `ms[[0]]` and masks look for columns with the names of the items; `multiget('ab')` looks for columns `a` and `b`.
164. **C150** (`headers_nested_counterexample`, `headers_key_counterexample`) with Multisets inside the names of the items are paired with the Datasets found depth first: wrong names, and Datasets that are not shown; a key that one Dataset lacks makes the display raise.
165. **C154** (`flatten_unlabelled_counterexample` and others) `flatten()` of Datasets without labels always raises (an empty Dataset with 0 rows is put beside them); renaming column by column collides with names present at that moment; values of the labels of later Datasets are ignored.
166. **C155** (`flatten_below_unlabelled_counterexample`, `flatten_below_unicode_counterexample`, `flatten_empty_counterexample`) Multisets inside need labels, and names whose column is stored as bytes (`cn.decode()`); an empty Multiset raises UnboundLocalError.
167. **C157** (`newOfArrays_names_counterexample`) of arrays named `key_c2`, `x`, `x` the third is renamed to `key_c2` and replaces the first key.
168. **C158** (`newOfMembers_empty_counterexample`) `Categorical([], ['a'], base_index=0)` raises since the minimum of no codes is taken.
169. **C159** (`newOfCodes_unsigned_counterexample`) unsigned codes are stored in the type chosen for the categories before they are checked: 257 with one category is accepted as 1.
170. **C162** (`copy_base0_counterexample`) `copy()` makes a Grouping without passing the base index: with base index 0 the first category becomes filtered and all others shift by one.
171. **C163** (`select_invalid_counterexample`) the invalid category is lost by `c[rows]` and by `copy()`.
172. **C165** (`compare_unordered_counterexample`, `compare_copy_counterexample`) `_ordered` is never set, so the check for unordered Categoricals never fires; the slice of a copy is not known to be sorted and compares unknown labels as larger than all.
173. **C167** (`fromCategoryTuple_counterexample`) a tuple that is no category gets code -1 (base index 1) or -2 (base index 0).
174. **C168** (`invalidSet_bytes_counterexample`) `invalid_set(b'a')` raises: the result of `decode` is not used.
175. **C170** (`where_float_counterexample`, `where_floats_counterexample`) `where(cond, int16_array, 1.0000001)` is float32: the type of a Python float is `np.min_scalar_type`, which is float16 for every float up to 65000, so its digits are lost. (`where_length_counterexample`) A condition with one row accepts longer arrays, and one without rows accepts anything.
176. **C171** (`where_base0_counterexample`) the codes of Categoricals with base index 0 are read with base index 1 in the result. (`where_mapping_counterexample`) Codes of Categoricals with a mapping are taken for positions in the list of labels.
177. **C173** (`unique_empty_counterexample`) `unique([])` raises IndexError (`arr[0]`). (`unique_dtype_counterexample`) `dtype=np.int32` raises TypeError (`in` on a text), `dtype='int32'` is ignored.
178. **C174** (`uniqueCat_base0_counterexample`) `unique(c, return_inverse=True)` for base index 0 is one too great, since `ikey` is already 1-based. (`uniqueCat_unused_counterexample`) Categories without rows are returned, and a Categorical with several keys raises AttributeError (`list.view`).
179. **C176** (`count_name_counterexample`) the values of an array named `Count` are replaced by the numbers.
180. **C178** (`mask_xori_counterexample`) `mask_xori(a, b, a)` is False everywhere. (`mask_single_counterexample`) `mask_and([a])` is `a` itself, so changing the result changes `a`.
181. **C180** (`minScalarType_counterexample`) `min_scalar_type(128, prefer_signed=True)` is int8.
182. **C181** (`logicalCommon_counterexample`) an unsigned array with a negative integer: the type stays unsigned.
183. **C182** (`cat2keys_filter_counterexample`) rows that do not pass the filter show `(Inv, Inv)`. (`cat2keys_join_counterexample`, `cat2keys_inv_counterexample`) Labels of several columns are joined by `_`, and `Inv` may be a category: different categories get the same label.
184. **C185** (`fromArrowInt_counterexample`) an int8 Arrow array with -128 and null: the result is int16, but both rows are -128, and none is invalid: nulls are filled with the invalid value of the old type.
185. **C187** (`text_counterexample`) `to_arrow` of bytes that are not ASCII raises UnicodeDecodeError.
186. **C188** (`fromArrowText_counterexample`) NUL characters at the end of a text are lost. (`fromArrowFixed_counterexample`) A sliced fixed-size binary array without nulls gives the rows of the whole buffer: `arr.buffers()[1]` ignores the slice.
187. **C189** (`cat_base0_counterexample`) `to_arrow` of a Categorical with base index 0 takes `grouping.ikey`, which is already 1-based: rows get the next category, and it raises if the last category occurs.
188. **C190** (`fromDict_signed_counterexample`) int8 indices with 129 or more values: index 127 overflows, since the number of categories is compared by `==`. (`fromDict_nulls_counterexample`) uint8 indices with 255 and null and 256 values: nulls show the last category.
189. **C191** (`fromDict_empty_counterexample`) a chunked array without chunks raises ValueError. The same holds for Dates, times and time spans without chunks.
190. **C192** (`multi_counterexample`) Categoricals with several keys are written as a dictionary of structs, but reading it always raises TypeError; keys that are plain arrays of numbers are not written (NotImplementedError).
191. **C193** (`mapped_counterexample`) rows with an invalid code that has a name cannot be read back (TypeError), the name of the invalid code is lost, and a code without name comes back with the name ''.
192. **C195** (`fromArrowDate_counterexample`) 1970-01-01 becomes an invalid Date.
193. **C196** (`dtn_counterexample`) a DateTimeNano made with `from_tz` Tokyo comes back nine hours earlier; times displayed in UTC are displayed in New York time.
194. **C197** (`fromArrowDtn_counterexample`) an Arrow timestamp, which is in UTC whatever its time zone, is taken for a wall clock time; the invalid integer that stands for null is shifted as well and becomes a time.
195. **C198** (`span_counterexample`) time spans of more than 2^53 nanoseconds (104 days) can be written but not read; fractions of nanoseconds are cut.
196. **C200** (`fromTable_counterexample`) of two columns with the same name only the last is kept.
197. **C202** (`plain_counterexample`) with `use_nullable=False` a missing int8 is the number -128 in pandas.
198. **C203** (`fromPandasInt_counterexample`) -128 of a column of type Int8 becomes missing without an error.
199. **C204** (`date_counterexample`) a Date becomes a column of integers in pandas; the missing day 0 is the number 0.
200. **C206** (`nulls_counterexample`) missing cells of a text column become the texts 'None' and 'nan'.
201. **C207** (`objects_counterexample`) the cells 7 and 'a' become text or raise ValueError, depending on their order; booleans become floats.
202. **C210** (`base0_counterexample`) a Categorical with base index 0 and a missing row raises ValueError.
203. **C212** (`dtn_zero_counterexample`) the invalid time 0 is 1970-01-01 in pandas (`to_arrow` makes it null).
204. **C213** (`fromPandasDtn_counterexample`) a column of seconds is read as nanoseconds; 1970-01-01 becomes invalid; other time zones than riptable's raise ValueError.
205. **C214** (`span_counterexample`) parts of a nanosecond are cut off.
206. **C215** (`fromPandasSpan_counterexample`) 3 seconds of a column of seconds become 3 nanoseconds.
207. **C217** (`fromFrame_counterexample`) of two columns with the same name one is lost; names that start with '_' raise ValueError; preserve_index=True raises for a frame with columns 'index' and 'level_0'.
208. **C219** (`zones_counterexample`) `DateTimeNanoScalar.__init__` and `__array_finalize__` keep a reference to the TimeZone object of the array, and `set_timezone` changes it in place: a scalar taken before is displayed in the new zone, and `set_timezone` of a view changes the array.
209. **C221** (`isnan_counterexample`) `DateTimeNanoScalar.isnan` is True for all times before 1970.
210. **C222** (`repeat_counterexample`, `repeat_shifted`) `DateTimeNanoScalar.repeat` gives UTC values to the constructor with the original from_tz: `ds.t = d[0]` of a time made from New York times is 4 or 5 hours late.
211. **C223** (`scalarOp_counterexample`) a scalar before 1970 plus a span is invalid; a scalar plus a span that is NaN is a valid time.
212. **C224** (`scalarOp_zone_counterexample`) a scalar displayed in Tokyo plus a span is displayed in New York.
213. **C225** (`newStart_counterexample`) with start_date, spans that are NaN and dates that are invalid give valid times.
214. **C228** (`first_column_counterexample`) `ds = Dataset(); ds.head(); ds.a = [1, 2, 3]` raises, because `head` and `tail` set `_nrows` to 0; an assignment to an empty Dataset that raises leaves its number of rows behind, and the next column of another length is refused. (`one_value_counterexample`) a Dataset of no rows takes `[5]` but not `np.array([5])`.
215. **C229** (`convert_counterexample`, `fraction_lost`, `bools_become_ints`) an object array `[1, 2.5]` becomes `[1, 2]` without a warning; `[1, None]` becomes text; `[True, False]` becomes `[1, 0]` as integers, because `isinstance(True, int)` is tested before bool.
216. **C230** (`iterrows_counterexample`) `iterrows` gives the same Struct for every row: `[*ds.iterrows()]` shows the last row throughout.
217. **C233** (`apply_counterexample`) `ds.apply(f)` for a function with `__name__` of a Dataset method (`sum`, `trim`, `head`) calls the method instead, without the arguments.
218. **C234** (`applyAll_counterexample`) two lambdas in a list: only the last one is in the Multiset.
219. **C235** (`imatrixY_counterexample`) `imatrix_y([f, g], name=['a'])` drops `g`, because functions and names are paired with `zip`.
220. **C236** (`addMatrix_counterexample`) `add_matrix` with a repeated name loses a column of the matrix.
221. **C237**, **C238** (`binary_counterexample`, `compare_counterexample`) an int64 with a uint64 array is calculated and compared as float64: numbers beyond 2^53 lose digits without warning.
222. **C239** (`compareInt_negative_counterexample`) `np.greater(uint8_array, -1)` is decided in uint8, so 0 is not greater than -1. (`compareInt_large_counterexample`) 2^63 - 1 in an int64 array equals the Python integer 2^63.
223. **C240** (`out_counterexample`) `np.multiply(FA([4]), FA([0.5]), out=int_array)` converts 0.5 to an integer first: the result is 0, not 2 (numpy refuses this call).
224. **C244** (`nanvar_ddof_counterexample`) `x.nanvar(ddof=0)` of integers calls np.nanvar, which counts the missing value (-128 for int8) as a number.
225. **C245** (`nansum_axis_counterexample`) `m.nansum(axis=0)` returns the sum of the whole matrix, because `if axis:` drops 0; missing integers in a matrix count as numbers.
226. **C246** (`nansum_uint64_counterexample`) the filtered sum of a uint64 array is a float64: the sum of the single value 2^53 + 1 is another number.
227. **C247** (`filter_order_counterexample`, `filter_repeat_counterexample`, `filter_negative_counterexample`) `load_sds(f, filter=[2, 0])` loads rows 0, 2; `filter=[1, 1]` loads row 1 once; `filter=[-1, 1]` loads row 1 only and `filter=[-1]` raises IndexError: the numbers are turned into a mask that is as long as the greatest number. (`filter_empty_bang_counterexample`) with an empty filter a column whose name contains `!` is not emptied.
228. **C248** (`filter_share_counterexample`) with `share=` the filter is set to None before the call of `rc.DecompressFile` and the mask is not passed: all rows are loaded.
229. **C250** (`stack_base0_gap_counterexample`) rows of a file without the column show the first category in a stacked Categorical of base index 0. (`stack_mapping_gap_counterexample`) for mappings they show the label of code 0. (`stack_mapping_unlabelled_counterexample`) a code without label gets the label another file gives it.
230. **C251** (`stack_class_counterexample`) a column that is a Date in the first file and a DateTimeNano in the second becomes a Date of nanoseconds. (`stack_numbers_counterexample`) numbers stacked with times become times. (`stack_mixed_counterexample`) numbers stacked with a Categorical are taken for its codes. (`stack_bang_counterexample`) Categoricals whose name contains `!` cannot be stacked (KeyError).
231. **C255** (`precision_counterexample`) with `DateTimeBase.PRECISION = 3`, 1.5 s is shown as `00:00:01.000` and 1.000000005 s as `00:00:01.005`: `utcnano % 10**precision` gives the last digits.
232. **C257** (`strftime_nextday_counterexample`) `DateTimeNano.strftime` of 2020-12-31 23:59:59.999999999 UTC writes 2021-01-01 00:00:00: `self / NANOS_PER_SECOND` is a float64, which `fromtimestamp` rounds to microseconds.
233. **C258** (`span_strftime_day_counterexample`) `TimeSpan.strftime` writes 25 hours like one hour.
234. **C259** (`hhmmss_negative_counterexample`) `hhmmss` of minus one second is -4041, of minus one hour and one minute -14100.
235. **C262** (`no_loss_counterexample`) `sds_flatten` with `b/_root.sds` and a file `b.sds` in the main folder overwrites `b.sds`, though "if there is a name conflict with items already in the base directory, the flatten will be skipped": only the temporary name of `_root.sds` is checked (comment "BUG" at rt_sds.py:455). The same for `a!x/_root.sds` with `a/x.sds`, and for folders `a` and `a.sds` with a `_root.sds` each.
236. **C263** (`raise_counterexample`) `sds_flatten` with `b/_root.sds` and a folder `b.sds`: the last rename raises, `b` is gone, its `_root.sds` is left as `_root.sds_temp`, and `b.sds` is not flattened.
237. **C265** (`retry_counterexample`) interrupted after the first move, `_root.sds_temp` is left; further runs never rename it.
238. **C266, C270** (`overflow_counterexample`) `ema_decay` multiplies its zero register by `exp(-rate * (time[0] - 0))` in the first row: if that overflows (first time below about -710/rate), every entry of the result is NaN. The same after a reset.
239. **C268** (`filter_nan_counterexample`) `ema_decay` skips NaN without a filter; with a filter that keeps every row the first NaN makes all later entries NaN.
240. **C269** (`reset_counterexample`, `masked_row_counterexample`) `ema_decay` ignores a reset in a row out of the filter, though "each position where the reset mask is True, the EMA value is reset"; and in a row out of the filter the output is the entry before it decayed, though "the corresponding element of the output array will be the same as the previous value".
241. **C272** (`attribute_counterexample`) `Struct({'size': 6}) == Dataset(...)` with six values is True at `size`: `hasattr` finds attributes that are no keys.
242. **C273** (`array_counterexample`) in comparisons of Structs, an array of one element equals longer arrays, and arrays that differ in some places are neither `==` nor `!=`.
243. **C274** (`empty_counterexample`) a Struct with an empty array is not equal to itself: `bool` of an empty array is False and `all` is never asked.
244. **C275** (`raises_counterexample`) `Struct({'a': 1}) == Struct({'a': 1.0})` raises NotImplementedError, though "If any comparison fails (exception) the value will be False"; the other way round it is True.
245. **C276** (`norows_counterexample`) `load_csv_as_dataset(version=2)` refuses a file with a header and no rows with ValueError; the other versions give an empty Dataset.
246. **C277** (`blank_counterexample`) with a blank line in the file (`csv.reader` gives an empty row) versions 1 and 2 skip it, version 0 raises IndexError and version 3 ValueError.
247. **C278** (`names_counterexample`, `converter_counterexample`) two columns of one name: versions 0, 1 and 3 keep the last one without a word, version 2 raises ValueError. A converter None or a type name as text is accepted by version 0 only.
248. **C279** (`nan_counterexample`, `nan_bits_counterexample`) "NaNs in the same location are considered equal" by `Struct.equals`, but a Struct with a number NaN is not equal to itself, and NaNs in arrays compare by their bits: numpy's nan and the NaN of 0/0 (sign bit set on x86) differ.
249. **C280** (`kind_counterexample`, `length_counterexample`) `Struct.equals` compares arrays by the checksum of their memory only: int32 `[1, 0]` equals int64 `[1]`, dates equal integers, Categoricals with different categories and the same codes are equal.
250. **C281** (`raises_counterexample`) `Struct.equals` raises AttributeError or TypeError when a number is compared with a Struct.
251. **C282** (`order_counterexample`, `name_counterexample`) `read_dset_from_np` takes the columns in the order of `os.listdir` and removes `.npy` anywhere in the name; columns `a` and `a.npy` share one file.
252. **C283** (`category_counterexample`) `write_dset_to_np` stores a Categorical as its codes and drops the categories.
253. **C284** (`conflict_counterexample`) different classes under one key: only the class seen last is kept (the code warns that data will be lost).
254. **C285** (`matrix_exact`, `matrix_counterexample`) arrays of two dimensions are stacked with `vstack`, but the second loop runs over the class `Array` again and replaces the result by `hstack`: the matrices end up side by side, or ValueError if they have different numbers of rows.
255. **C286** (`marker_counterexample`, `far_counterexample`) `_mbget_2dims` multiplies positions by the number of columns in int64: the invalid marker of a plain ndarray with an even number of columns becomes 0 and reads row 0 (FastArrays are guarded); 2^62 + 1 with 4 columns reads row 1.
256. **C287** (`default_counterexample`) `mbget(matrix, idx, d)` ignores `d`.
257. **C289** (`missing_exact`, `missing_counterexample`) `str_replace(..., missing=...)` is documented to insert `missing` for texts that are not found, but the Categorical it makes raises ValueError.
258. **C291** (`bool_counterexample`, `category_counterexample`, `compare_counterexample`) `as_matrix`: a column of True only becomes 0.0; cells of Categoricals count from 1 whereas `category_values` counts from 0 (for texts both count from 0); numbers of two Datasets cannot be compared without keys.
259. **C292** (`twice_counterexample`, `str_counterexample`) `numpy_array_to_dict`: a name given twice silently loses a column; `columns='ab'` names two columns `a` and `b`; an empty list for one dimension raises IndexError.
260. **C293** (`alias_counterexample`, `name_counterexample`, `nul_counterexample`) `dset_dict_to_list`: the same Dataset under two keys shows the last key for both; with the name of a method (`sum`) or a name like `_k` no column is added and nothing is raised (`__setattr__` *returns* the AttributeError); `b'a'` and `b'a\\0'` become the same.
261. **C295** (`mapped_counterexample`) `ismember` of Categoricals with mappings `{1: 'x'}` and `{2: 'x'}`: no code contradicts, so codes are compared and `x` is not found in `x`; codes without a label are found.
262. **C296** (`name_counterexample`) a Categorical with one key column loads with the column named `key_0`.
263. **C297** (`mapping_counterexample`, `empty_counterexample`) only the dictionary from labels to codes is saved: with two codes for one label the first code has no label after loading; an empty mapping is saved and cannot be loaded.
264. **C299** (`merge2_sides_counterexample`) `merge2` with `left_on` and `right_on` of different lengths makes a ValueError without raising it (rt_merge.py:2627) and joins on the shorter list.
265. **C301** (`enter_counterexample`, `slash_counterexample`, `upper_counterexample`) `choice in 'Yy'` is true for an empty line, so pressing Enter replaces the file; a Dataset saved with name `a/b` looks for `a!b.sds` and replaces `a/b.sds` without asking; `x.SDS` is looked for but `x.SDS.sds` is replaced without asking.
266. **C303** (`struct_counterexample`) a Struct without nested containers ignores `name` and is saved to the path itself, which is documented to be a folder then.
267. **C304** (`position_counterexample`) the decorator binds arguments without `self` to a signature with `self` (rt_str.py:100-103): `regex_match(regex, False)` raises KeyError.
268. **C305** (`empty_counterexample`) `regex_match` and `regex_replace` raise for arrays without elements.
269. **C306** (`none_counterexample`, `str_counterexample`, `names_counterexample`) a group that took no part gives None and not `fillna`; `extract` of a unicode array with a pattern without groups raises AttributeError (`decode` of a str); two equal names lose a column.
270. **C307** (`bytes_counterexample`) `label_filter` with `like` or `regex` raises TypeError for labels of bytes: the encoded copy is not used (rt_struct.py:3043-3047).
271. **C308, C309** (`base_counterexample`, `keys_base_counterexample`) `categories_equal` does not compare base indices: Categoricals with the same categories and base 0 and 1 are taken as aligned, so `normalize_keys` matches row 6 with row 5.
272. **C309** (`count_counterexample`) `normalize_keys` takes `zip` of the keys: with two columns on one side and one on the other the second is ignored.
273. **C310** (`int_counterexample`, `label_counterexample`, `empty_counterexample`, `default_counterexample`) with integer categories missing values show the category of the last row (`v[-1]`), or the call raises; a category named `Inv` (or empty, with short categories) is the label of missing values too; no rows raise; the parts of the default call count from zero and `Categorical(codes, categories=labels)` counts from one, so every row shows the label before its own.
274. **C311** (`dot_counterexample`) a key `a.b` and a nested key `b` in `a` are listed as the same path. The documentation of `case_sensitive` (rt_struct.py:5340) says the opposite of what its name says and the code does.
275. **C312** (`attribute_counterexample`) the test for missing columns is `getattr`: the name of a method passes, and the columns before it are converted before the exception.
276. **C313** (`multikey_counterexample`, `underscore_counterexample`, `capital_counterexample`) `NotImplementedError` is made but not raised for Categoricals with several key columns, which are left out; a name that begins with an underscore or is empty without its prefix makes the call fail; the name of a method is capitalised and can replace another column.
277. **C315** (`silent_counterexample`, `overflow_counterexample`, `sorted_counterexample`) if key columns are wider than the console all other columns vanish without dots; the column of dots and the blanks between key columns are not counted, so lines are wider than the console; a view sorted by more columns than fit raises IndexError when shown (rt_display.py:714-715).
278. **C317** (`rounded_counterexample`) keys are compared as shown: 1.001 and 1.002 are the same key.
279. **C318** (`right_counterexample`) with no column on the right `header[-0:]` are all headers (rt_display.py:1164), and showing the Multiset raises IndexError.
280. **C319** (`first_counterexample`) a first column wider than the console gives an empty first table; for a sorted view IndexError. Footers are not shown at all in this mode (rt_display.py:896).
281. **C320** (`sort_counterexample`, `limit_counterexample`, `header_counterexample`) the transposed view shows the unsorted rows, 15 of them instead of COL_T, and numbers of two digits above one character displace all that follow.
282. **C321** (`hash_counterexample`, `twice_counterexample`) a column named `#` is taken for the row numbers and not shown; a label that is a sort column is shown twice.
283. **C322** (`tuple_empty_group_counterexample`, `tuple_columns_raises`) with tuple results a group without rows leaves `None` in the array and `np.vstack` raises; with two or more columns the object array of the first column, cut by one, is used again (rt_grouping.py:2764, 2797), and the last group raises IndexError.
284. **C324** (`outputs_filtered_counterexample`) `apply_nonreduce` with a dict of dtypes skips group 0, so filtered rows hold uninitialised memory (rt_grouping.py:2690, 2870).
285. **C325** (`outputs_single_raises`, `outputs_last_column`, `outputs_empty_group_counterexample`) one array is turned into a tuple of scalars (`tuple(arr)` instead of `(arr,)`, rt_grouping.py:2722) and slicing them raises; on a grouped dataset all columns write into the same outputs and the last one wins; unwritten entries are not filled with invalid values. `func_param` is not passed on in this mode (rt_grouping.py:2743, 2877).
286. **C327** (`load_saved_counterexample`) a Dataset saved to `a` is written to `a.sds`, but `load_sds('a')` loads a folder `a` when there is one (rt_sds.py:2932-2936); when this folder cannot be read, the exception is swallowed and `a.sds` is loaded (rt_sds.py:1820-1840).
287. **C328** (`list_counterexample`) missing paths are dropped with a warning and the results of later paths move up (rt_sds.py:1159); `folders` is not given to the directories of the list (rt_sds.py:1234); when the only file of the list was appended to, its stacked result is returned alone and the directories are dropped (rt_sds.py:1248).
288. **C331** (`stack_dirs_counterexample`) `_stack_sds_dirs` gives on neither `filter` nor `mustexist`, nor `include` when `folders` is given (rt_sds.py:1653, 1715); the names `x` and `x.sds` share one entry, so that every file is stacked twice (rt_sds.py:1648).
289. **C332** (`keys_history_counterexample`) `keys(sort=True)` after `gbkeys_filtered` sorts the filtered bin in among the keys and trims the first key (rt_groupbykeys.py:175-188); `keys(sort=False)` after a sort gives sorted keys; `keys(showfilter=True)` alone does not put the bin in.
290. **C333** (`values_counterexample`, `sortRows_first_raises`) after `keys(sort=False)` on sorted keys `sort_gb_data` is False, and values in first-occurrence order stand beside sorted keys; `isortrows` before any keys raises AttributeError (rt_groupbykeys.py:354).
291. **C334** (`copy_counterexample`, `copy_binned_raises`) `copy` takes the flags but not the keys: sorted keys come back unsorted, binned ones lose their first key; for prebinned chains `len(None)` raises (rt_groupbykeys.py:75, 378-395).
292. **C336** (`bins_counterexample`) `get_bin([i])` gives the bin, not a list; `get_bin([])` raises IndexError (rt_groupbykeys.py:325-330).
293. **C337** (`report_counterexample`) an element with an empty description `{}` is reported as an extra column (rt_meta.py:269 `if elem_schema`); contents given for an array raise AttributeError (`obj.keys()`); 'FastArray', which the documentation lists as a type, is compared with the dtype and never matches.
294. **C338** (`reported_counterexample`, `reported_exact`) `res[EXTRA_COLUMN] = key` overwrites: of several extra (or missing) columns only the last is reported (rt_meta.py:273-277).
295. **C339** (`described_counterexample`) the same array under two names has the description of the second under both.
296. **C340** (`ends_counterexample`) for an array over a buffer (`np.frombuffer`) the loop over `.base` reaches the bytes object, which has no `base`: AttributeError (rt_struct.py:5263).
297. **C342** (`physical_counterexample`) the size of a Categorical, categories included, is kept under the identity of its codes: a column over the same codes makes the result depend on order, and categories shared by two Categoricals are counted twice; the root is not put among the seen objects, so a Struct inside itself is gone through twice.
298. **C343** (`logical_counterexample`) a Dataset under two names is counted once in the logical size, though the documentation says aliases are counted as if copied (rt_struct.py:5301-5311).
299. **C344** (`create_counterexample`) `Dataset({'sum': ..., 'Sum': ...})` has one column: the first is renamed to 'Sum' and then replaced, also when the lengths differ (rt_struct.py:2628-2634).
300. **C346** (`same_counterexample`) `Dataset({'a': [1, 2], 'b': 7})` raises while `ds.b = 7` fills the column: the number of rows is not known before the loop ends (rt_dataset.py:487, 650); a tuple raises TypeError in a dictionary and is taken in an assignment (rt_dataset.py:516).
301. **C349** (`method_counterexample`) texts called 'op' with prefix 'p' raise TypeError, as `hasattr(self, 'pop')` finds the method (rt_struct.py:1945); (`overlap_counterexample`) texts called 'px' and 'x' with the prefix dropped: the Categorical of 'ppx' removes the column 'px', so the indices for 'x' are lost without an error; (`taken_counterexample`) a name of a method is given a capital letter, and TypeError is raised after the column of the name is removed if that is taken as well; (`empty_prefix_counterexample`) an empty prefix moves the column to the end (rt_struct.py:1970-1985).
302. **C352** (`bad_row_counterexample`) with bad rows and bad columns the total of a bad row includes the bad columns for sum, min, ... and leaves them out for mean, median, ...: `_calc_onepass` puts new totals only where rows are good (rt_accum2.py:887), `_calc_multipass` uses the filter of the columns for all rows (732).
303. **C353** (`base0_counterexample`) bad rows given by number for a Categorical of base index 0: the codes are compared with number + 1 (rt_accum2.py:637), so another row is left out of the totals.
304. **C354** (`missing_counterexample`) a bad label that is not there raises IndexError for sum and is passed over for mean.
305. **C355** (`argument_counterexample`) bad rows given as an integer array with `showfilter=True`: `np.atleast_1d` is the array itself and `+= 1` (rt_accum2.py:854, 985) changes it twice for every data column, so the caller's array is changed, the rows noted are wrong, and the second data column leaves out other rows.
306. **C356** (`load_counterexample`, `escape_counterexample`) arrays of a dictionary in an HDF5 file are lost without an error when their names become the same: `_a` and `a`, `if` and `_if` (a free name is looked for among the names in the file only, rt_utils.py:227), `sum` and `Sum`; a name of underscores becomes the empty name.
307. **C358** (`fix_counterexample`) `load_h5(fixblocks=True)` loses the column of a name that stands in two blocks, and names beyond the width of the matrix.
308. **C361** (`moments_counterexample`) `as_recordarray` turns invalid times into moments: an invalid DateTimeNano or Date (0) is 1970-01-01 and an invalid DateSpan is -2147483648 days; only the smallest 64 bit number is NaT.
309. **C363** (`bitcount_counterexample`) `bitcount(-1)` is 1 but `bitcount([-1])` is the size of the type in bits: the ones of `bin(a)` are counted (rt_numpy.py:5442), without the sign; a numpy bool raises although arrays of bools are allowed.
310. **C39** (`sortlist_str_replace_counterexample`) `col_str_replace` on a sorted Struct renames the columns and then raises, so the Struct says it is sorted by a column it does not have.
311. **C69** (`ismemberKeys_truncates_counterexample`) `rt.ismember` of several keys truncates floats compared with int64 in each column: the row (1.5, 1) is found as (1, 1).
312. **C366** (`pop_is_getitem_counterexample`) `col_pop([0, 2])` and `col_pop([True, False, True])` raise TypeError although the argument is documented as for `[]`: numbers and masks become a numpy array of names, and only a list is taken as several columns (rt_struct.py:3692), so `getattr(self, array)` is called.
313. **C367** (`span_filter_counterexample`) `ts.sum(filter=mask)` and the other reductions of a TimeSpan accept every keyword argument and use none of them (rt_datetime.py:7051-7055): the rows that the filter leaves out are counted.
314. **C368** (`span_unit_counterexample`) `ts.var()` and `ts.nanvar()` return square nanoseconds as a TimeSpan: the variance of 1 and 3 seconds is a span of more than 63 years.
315. **C371** (`fill_invalid_dtype_counterexample`) `fill_invalid(dtype=...)` in place raises for plain arrays if the type differs, but Date, DateSpan, DateTimeNano and TimeSpan pass their own type instead of the argument and are overwritten.
316. **C373** (`name_counterexample`, `empty_counterexample`, `plain_counterexample`, `origin_counterexample`, `attributes_counterexample`) Pickling loses the name of an array although it is passed on (rt_fastarray.py:854-860). An array of unicode without rows comes back as bytes, and with `CompressPickle` off every ASCII one does (the constructor, :797-801). A DateTimeNano says afterwards that it came from GMT (shown by `info`, used by `to_arrow`). Date and DateSpan take all of `MetaDefault` for instance variables (rt_datetime.py:2563-2567) and get the attributes `name`, `typeid`, `version` and `instance_vars`.
317. **C378** (`class_error_counterexample`) `class_error` adds the distances of the labels (rt_stats.py:108-112): with more than two classes label 2 for 0 counts twice, and the error can be above 1.
318. **C379** (`printed_r2_counterexample`) The R2 that `lm` prints divides the mean of the products by the standard deviations without subtracting the means (rt_stats.py:141): a perfect fit of 1, 2, 3 prints 49.
319. **C381** (`statx_counterexample`) `statx` describes finite numbers only, but Count holds all elements and NaN_Count only NaN, so infinities are in no count (`validcount` is computed and not used, rt_stats.py:72).
320. **C384** (`epoch_counterexample`) 1 January 1970 is 719529 in matlab; as Date it becomes 0, the invalid date, and midnight of that day in UTC the invalid time.
321. **C386** (`names_counterexample`, `one_lost`) `outliers` adds columns Values, Pos and Names to the one kept (rt_dataset.py:4439-4459). If the column kept has one of these names it is replaced (Pos, Names) or replaces the extreme values (Values).
322. **C389** (`outside_counterexample`, `outside_exact`) The loops start at group 1 and the result is allocated by `empty` (rt_groupbynumba.py:500, 549), so rows in no group (filtered) hold what was in memory.
