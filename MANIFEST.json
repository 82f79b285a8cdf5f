{
 "claims": [
  {
   "property": "C01",
   "status": "proved",
   "theorems": [
    "Verif.Merge.left_join_correct",
    "Verif.Merge.merge_indices_left",
    "Verif.Merge.leftJoinSpec_pair",
    "Verif.Merge.leftJoinSpec_alone",
    "Verif.Merge.leftJoinSpec_nodup",
    "Verif.Merge.ofKeys_wf"
   ],
   "note": "Exact row list of the left join for every grouping meeting the contract, any schedule and buffer content; also at key-column level with nulls."
  },
  {
   "property": "C02",
   "status": "proved",
   "theorems": [
    "Verif.Merge.inner_join_correct",
    "Verif.Merge.merge_indices_inner",
    "Verif.Merge.innerJoinSpec_pair"
   ],
   "note": ""
  },
  {
   "property": "C03",
   "status": "proved",
   "theorems": [
    "Verif.Merge.right_join_correct",
    "Verif.Merge.outer_join_correct",
    "Verif.Merge.merge_indices_right",
    "Verif.Merge.merge_indices_outer"
   ],
   "note": "keep=None. (outer_multikey_keep_counterexample under C04 concerns keep on a multi-column key.)"
  },
  {
   "property": "C04",
   "status": "partial",
   "theorems": [
    "Verif.Merge.keep_right_left_join",
    "Verif.Merge.keep_right_inner_join",
    "Verif.Merge.keep_right_outer_join",
    "Verif.Merge.keep_both_left_join",
    "Verif.Merge.keep_both_inner_join",
    "Verif.Merge.keep_left_unique_right",
    "Verif.Merge.keep_left_multi_partial",
    "Verif.Merge.merge_indices_keep_right",
    "Verif.Merge.keep_left_null_counterexample",
    "Verif.Merge.keep_left_all_null_counterexample",
    "Verif.Merge.outer_multikey_keep_counterexample"
   ],
   "note": "Proved for keep on the right side and on both sides. keep on the left only violates the property with null left keys and repeated right keys (counterexamples); the rest is keep_left_multi_partial."
  },
  {
   "property": "C05",
   "status": "proved",
   "theorems": [
    "Verif.Asof.asof_backward_correct",
    "Verif.Asof.isBackward_unique"
   ],
   "note": ""
  },
  {
   "property": "C06",
   "status": "proved",
   "theorems": [
    "Verif.Asof.asof_forward_correct",
    "Verif.Asof.isForward_unique"
   ],
   "note": ""
  },
  {
   "property": "C07",
   "status": "proved",
   "theorems": [
    "Verif.Asof.asof_grouped_backward_correct",
    "Verif.Asof.asof_grouped_forward_correct",
    "Verif.Asof.asof_grouped_nearest_correct"
   ],
   "note": "Sortedness is only needed inside each by key; null and absent keys get no match."
  },
  {
   "property": "C08",
   "status": "proved",
   "theorems": [
    "Verif.Asof.asof_nearest_correct"
   ],
   "note": "Keys in an ordered additive group."
  },
  {
   "property": "C09",
   "status": "partial",
   "theorems": [
    "Verif.Asof.asof_backward_ok_iff",
    "Verif.Asof.asof_forward_ok_iff",
    "Verif.Asof.asof_rejects_unsorted_left_partial",
    "Verif.Asof.asof_backward_rejects_unsorted_right_partial",
    "Verif.Asof.asof_forward_rejects_unsorted_right_partial",
    "Verif.Asof.asof_unsorted_right_accepted_counterexample",
    "Verif.Asof.asof_unsorted_left_accepted_counterexample",
    "Verif.Asof.asof_rejects_below_min_valid"
   ],
   "note": "The code accepts unsorted columns beyond the part the cursors visit (counterexamples); the acceptance conditions are characterised exactly (ok_iff)."
  },
  {
   "property": "C10",
   "status": "proved",
   "theorems": [
    "Verif.Merge2.merge_names_correct",
    "Verif.Merge2.merge_names_no_clash",
    "Verif.Merge2.merge_names_refused",
    "Verif.Merge2.key_column_order_counterexample"
   ],
   "note": "Names are distinct, only clashing columns are renamed, or the call raises. The position of common key columns in the result depends on Python set iteration order (counterexample)."
  },
  {
   "property": "C100",
   "status": "partial",
   "theorems": [
    "Verif.CatOps.shiftCat_partial",
    "Verif.CatOps.asSinglekey_partial",
    "Verif.CatOps.asSinglekey_wf_partial",
    "Verif.CatOps.shiftCat_base_counterexample",
    "Verif.CatOps.asSinglekey_base_counterexample",
    "Verif.CatOps.asSinglekey_joined_counterexample"
   ],
   "note": "In full for base index 1 and labels that stay different when joined; the code goes wrong otherwise (counterexamples)."
  },
  {
   "property": "C101",
   "status": "proved",
   "theorems": [
    "Verif.CatOps.setValid_correct",
    "Verif.CatOps.regroup_rows",
    "Verif.CatOps.regroup_labels",
    "Verif.CatOps.regroup_first"
   ],
   "note": "For single keys given as one list of labels; combine_accum1_filter (C++) has a stated contract, met by refCombine (refCombine_ok)."
  },
  {
   "property": "C102",
   "status": "partial",
   "theorems": [
    "Verif.CatOps.setValidEnum_rows",
    "Verif.CatOps.setValidEnum_nofilter",
    "Verif.CatOps.setValidEnum_self_exact",
    "Verif.CatOps.setValidEnum_self_counterexample"
   ],
   "note": "The result is as stated; the codes of the Categorical itself are overwritten (counterexample, and exactly when)."
  },
  {
   "property": "C103",
   "status": "proved",
   "theorems": [
    "Verif.CatOps.makeUnique_correct"
   ],
   "note": "Single key; the Categorical made of the categories has a stated contract."
  },
  {
   "property": "C104",
   "status": "proved",
   "theorems": [
    "Verif.CatOps.mergeDict_correct"
   ],
   "note": "The order of the merged mapping is that of a set and is left open."
  },
  {
   "property": "C105",
   "status": "proved",
   "theorems": [
    "Verif.OldMerge.merge_left",
    "Verif.OldMerge.merge_right"
   ],
   "note": "ismember (C++) is modelled as the first match; a key name used on both sides is paired with itself (Args.Checked, see C43)."
  },
  {
   "property": "C106",
   "status": "proved",
   "theorems": [
    "Verif.OldMerge.merge_outer",
    "Verif.OldMerge.merge_outer_null_counterexample"
   ],
   "note": "The order of the keys is that of unique32 (contract UniqueOK, met by refUnique). A null key gets a row without data, as the statement says; the counterexample shows that this loses the data of its rows."
  },
  {
   "property": "C107",
   "status": "partial",
   "theorems": [
    "Verif.OldMerge.merge_inner_partial",
    "Verif.OldMerge.merge_inner_exact",
    "Verif.OldMerge.merge_inner_counterexample"
   ],
   "note": "In full if no key is repeated on the left; otherwise the rows of a repeated key all get the data of the first one (counterexample, exact for all inputs)."
  },
  {
   "property": "C108",
   "status": "proved",
   "theorems": [
    "Verif.OldMerge.merge_key_count",
    "Verif.OldMerge.merge_no_keys",
    "Verif.OldMerge.merge_missing",
    "Verif.OldMerge.merge_indicator_collision",
    "Verif.OldMerge.merge_overlap"
   ],
   "note": ""
  },
  {
   "property": "C109",
   "status": "proved",
   "theorems": [
    "Verif.Sds.file_roundtrip",
    "Verif.Sds.path_flat",
    "Verif.Sds.file_special_counterexample"
   ],
   "note": "Library calls (SDS reader and writer, JSON, meta data of special arrays) have a stated contract LibOK, met by refLib (refLib_ok). Without the hypothesis on names of special arrays the file cannot be loaded (counterexample)."
  },
  {
   "property": "C11",
   "status": "proved",
   "theorems": [
    "Verif.Items.col_rename_correct",
    "Verif.Items.col_rename_rejects",
    "Verif.Items.col_rename_round_trip",
    "Verif.Items.history_refines",
    "Verif.Items.raises_iff",
    "Verif.Items.reachable_ok"
   ],
   "note": "Item-container level, for every container reachable by public operations."
  },
  {
   "property": "C110",
   "status": "proved",
   "theorems": [
    "Verif.Sds.onefile_roundtrip"
   ],
   "note": "What the containers are sorted by is lost, see C111."
  },
  {
   "property": "C111",
   "status": "partial",
   "theorems": [
    "Verif.Sds.onefile_roundtrip",
    "Verif.Sds.onefile_sort_counterexample",
    "Verif.Sds.onefile_slash_counterexample",
    "Verif.Sds.onefile_bang_counterexample",
    "Verif.Sds.onefile_root_counterexample",
    "Verif.Sds.onefile_metastring_counterexample"
   ],
   "note": "Holds for the names of C110; for others items are moved, lost or the file cannot be loaded, and sort columns are always lost (counterexamples)."
  },
  {
   "property": "C112",
   "status": "proved",
   "theorems": [
    "Verif.Sds.dir_roundtrip",
    "Verif.Sds.path_nested",
    "Verif.Sds.saveDir_eq"
   ],
   "note": "No Dataset holds a container; None placeholders are not modelled."
  },
  {
   "property": "C113",
   "status": "partial",
   "theorems": [
    "Verif.Sds.dir_roundtrip",
    "Verif.Sds.dir_order_counterexample"
   ],
   "note": "For every container that has a file of its own; one that holds only containers comes back in listing order (counterexample)."
  },
  {
   "property": "C114",
   "status": "partial",
   "theorems": [
    "Verif.Sds.path_flat",
    "Verif.Sds.path_nested",
    "Verif.Sds.resave_stale_counterexample",
    "Verif.Sds.resave_array_counterexample",
    "Verif.Sds.resave_leaf_counterexample",
    "Verif.Sds.resave_flat_counterexample"
   ],
   "note": "Holds if no directory is there (flat) or its old files are not in the way (nested); otherwise old files, which are never removed, come back (counterexamples)."
  },
  {
   "property": "C115",
   "status": "partial",
   "theorems": [
    "Verif.Sds.dir_refuses",
    "Verif.Sds.path_nested",
    "Verif.Sds.dir_refuses_counterexample",
    "Verif.Sds.dir_bang_counterexample",
    "Verif.Sds.dir_ext_counterexample",
    "Verif.Sds.dir_root_counterexample"
   ],
   "note": "Refused at every depth if the container gets a file and its name has no '!'. A '!' is never refused and the container is lost; names ending in .sds and a container called _root are lost too (counterexamples)."
  },
  {
   "property": "C116",
   "status": "proved",
   "theorems": [
    "Verif.PDs.list_shows",
    "Verif.PDs.list_some",
    "Verif.PDs.files_shows"
   ],
   "note": "Datasets with the same columns; a Dataset is the list of its rows. Names given twice: see names_twice_counterexample under C117."
  },
  {
   "property": "C117",
   "status": "partial",
   "theorems": [
    "Verif.PDs.list_shows",
    "Verif.PDs.list_item_int",
    "Verif.PDs.back_first",
    "Verif.PDs.item_column_counterexample",
    "Verif.PDs.item_position_counterexample",
    "Verif.PDs.names_twice_counterexample"
   ],
   "note": "By name if no column has it, by number if it is no position of a column, from the end for all but the first partition (which raises); otherwise counterexamples."
  },
  {
   "property": "C118",
   "status": "partial",
   "theorems": [
    "Verif.PDs.fileNames_ok",
    "Verif.PDs.fileNames_number",
    "Verif.PDs.fileNames_single",
    "Verif.PDs.fileNames_single_counterexample"
   ],
   "note": "In full for two or more files; for a single one only if something precedes the number, otherwise only its last digit is taken (counterexample)."
  },
  {
   "property": "C119",
   "status": "partial",
   "theorems": [
    "Verif.PDs.setPnames_exact",
    "Verif.PDs.copy_shows",
    "Verif.PDs.sortCopy_shows",
    "Verif.PDs.inplace_exact",
    "Verif.PDs.pcat_stale_counterexample",
    "Verif.PDs.filter_inplace_counterexample",
    "Verif.PDs.sort_inplace_counterexample"
   ],
   "note": "For new names and copies. In-place operations keep the borders, so rows change partitions; the Categorical keeps old names (counterexamples)."
  },
  {
   "property": "C12",
   "status": "proved",
   "theorems": [
    "Verif.Items.move_to_front_correct",
    "Verif.Items.move_to_back_correct",
    "Verif.Items.history_refines"
   ],
   "note": ""
  },
  {
   "property": "C120",
   "status": "proved",
   "theorems": [
    "Verif.AccTab.fill_gen",
    "Verif.AccTab.gen_shows"
   ],
   "note": "String labels of columns; names of tables differ from labels. The filters of trim are parameters (C79 for trim itself)."
  },
  {
   "property": "C121",
   "status": "partial",
   "theorems": [
    "Verif.AccTab.fill_gen",
    "Verif.AccTab.setItem_renames_counterexample",
    "Verif.AccTab.setItem_twice_counterexample",
    "Verif.AccTab.gen_overwrites_counterexample"
   ],
   "note": "For different Datasets with names that are no labels; the Dataset passed is changed, one passed twice shows the wrong name or raises, a column with the name of another table is overwritten (counterexamples)."
  },
  {
   "property": "C122",
   "status": "proved",
   "theorems": [
    "Verif.AccTab.accumRatio_shows",
    "Verif.AccTab.accumRatio_raises",
    "Verif.AccTab.accumRatio_accum2",
    "Verif.AccTab.accum2_cross"
   ],
   "note": "Aggregates whose totals come from parts (sum, min, max, count); no category called Summary0 (C123), non-empty labels."
  },
  {
   "property": "C123",
   "status": "partial",
   "theorems": [
    "Verif.AccTab.accumRatio_shows",
    "Verif.AccTab.accumRatio_raises",
    "Verif.AccTab.accumRatio_width_counterexample",
    "Verif.AccTab.accumRatio_mutates_counterexample",
    "Verif.AccTab.accumRatio_summary0_counterexample"
   ],
   "note": "Exactly when it raises; the Categorical of the caller is renamed and a category Summary0 is lost (counterexamples)."
  },
  {
   "property": "C124",
   "status": "proved",
   "theorems": [
    "Verif.AccTab.ratiop_shows",
    "Verif.AccTab.ratiop_accum2",
    "Verif.AccTab.percent_sums",
    "Verif.AccTab.sum_additive"
   ],
   "note": "Exact rational arithmetic for the sums; no category called TotalRatio or (with include_total) Total, and the totals are not removed as blanks (C125)."
  },
  {
   "property": "C125",
   "status": "partial",
   "theorems": [
    "Verif.AccTab.ratiop_shows",
    "Verif.AccTab.accumCols_shows",
    "Verif.AccTab.ratiop_name_counterexample",
    "Verif.AccTab.ratiop_blanks_counterexample",
    "Verif.AccTab.accumCols_names_counterexample"
   ],
   "note": "A category TotalRatio and totals that are all 0 with remove_blanks raise, shorter lists cut the others (counterexamples)."
  },
  {
   "property": "C126",
   "status": "proved",
   "theorems": [
    "Verif.AccTab.accumCols_shows",
    "Verif.AccTab.ratiop_shows",
    "Verif.AccTab.ratio_cross"
   ],
   "note": "Names different from each other and from the label column; without remove_blanks."
  },
  {
   "property": "C127",
   "status": "proved",
   "theorems": [
    "Verif.OldAsof.mergeAsof_backward",
    "Verif.OldAsof.mergeAsof_forward",
    "Verif.OldAsof.mergeAsof_nearest",
    "Verif.OldAsof.latest_iff_backward",
    "Verif.OldAsof.earliest_iff_forward"
   ],
   "note": "The C++ alignment of sorted columns, argsort and issorted are parameters with contracts (a reference construction meets them: exW_ok). No NaN in the on-columns; distances without overflow (C129)."
  },
  {
   "property": "C128",
   "status": "proved",
   "theorems": [
    "Verif.OldAsof.mergeAsof_contents",
    "Verif.OldAsof.mergeAsof_refuses"
   ],
   "note": ""
  },
  {
   "property": "C129",
   "status": "partial",
   "theorems": [
    "Verif.OldAsof.mergeAsof_nearest",
    "Verif.OldAsof.mergeAsof_tolerance_ignored",
    "Verif.OldAsof.mergeAsof_tolerance_counterexample",
    "Verif.OldAsof.mergeAsof_nearest_unsigned_counterexample"
   ],
   "note": "The tolerance is ignored (documented as not implemented); if differences of unsigned numbers wrap around, later keys are never found nearest. Proved for true distances."
  },
  {
   "property": "C13",
   "status": "partial",
   "theorems": [
    "Verif.Items.add_prefix_correct",
    "Verif.Items.add_suffix_correct",
    "Verif.Items.str_replace_partial",
    "Verif.Items.str_replace_existing_raises",
    "Verif.Items.str_replace_counterexample"
   ],
   "note": "Prefix and suffix fully; col_str_replace loses a column when two columns become the same new name (counterexample)."
  },
  {
   "property": "C130",
   "status": "proved",
   "theorems": [
    "Verif.TimeCut.cutTime_span",
    "Verif.TimeCut.cutTime_list",
    "Verif.TimeCut.grid_cover",
    "Verif.TimeCut.tupleNs_usual"
   ],
   "note": "For positive lengths, start before end, tuples with fields in their usual ranges. searchsorted (C++) is a parameter with a contract (refSearch_ok). The loop has fuel: for every amount above a bound the result is the same."
  },
  {
   "property": "C131",
   "status": "partial",
   "theorems": [
    "Verif.TimeCut.uncovered_exact",
    "Verif.TimeCut.grid_cover",
    "Verif.TimeCut.first_edge_counterexample",
    "Verif.TimeCut.midnight_counterexample",
    "Verif.TimeCut.zero_size_counterexample",
    "Verif.TimeCut.tuple_order_counterexample"
   ],
   "note": "The time exactly at the first edge is in no bucket (midnight with add_pre_bucket); a length of 0 never ends; tuples like (9, 90) are sorted wrongly. uncovered_exact says which times are lost."
  },
  {
   "property": "C132",
   "status": "partial",
   "theorems": [
    "Verif.TimeCut.names_distinct",
    "Verif.TimeCut.labels_ok",
    "Verif.TimeCut.names_counterexample",
    "Verif.TimeCut.pre_name_counterexample"
   ],
   "note": "Edges on different days have the same names; with a format of less than four letters 'pre' and 'post' are cut off. Proved for edges of whole microseconds within one day."
  },
  {
   "property": "C133",
   "status": "proved",
   "theorems": [
    "Verif.TimeCut.stepOf_number",
    "Verif.TimeCut.resample_each",
    "Verif.TimeCut.resample_order"
   ],
   "note": "Numbers in rules: whole numbers (decimals are modelled as exact fractions)."
  },
  {
   "property": "C134",
   "status": "proved",
   "theorems": [
    "Verif.TimeCut.resample_range",
    "Verif.TimeCut.resample_covers",
    "Verif.TimeCut.range_even"
   ],
   "note": ""
  },
  {
   "property": "C135",
   "status": "partial",
   "theorems": [
    "Verif.TimeCut.resample_local",
    "Verif.TimeCut.resample_local_exact",
    "Verif.TimeCut.local_counterexample",
    "Verif.TimeCut.invalid_range_counterexample",
    "Verif.TimeCut.small_step_counterexample"
   ],
   "note": "Rounding is done in UTC: displayed times are round exactly if the step divides the offset of the zone; an invalid time makes the range start in 1970; rules below a nanosecond raise."
  },
  {
   "property": "C136",
   "status": "partial",
   "theorems": [
    "Verif.TimeCut.diffTimes_exact",
    "Verif.TimeCut.diff_invalid_counterexample"
   ],
   "note": "Next to an invalid time the difference is a valid span of many years. Proved for valid times."
  },
  {
   "property": "C137",
   "status": "proved",
   "theorems": [
    "Verif.GbCalc.op_data",
    "Verif.GbCalc.op_only",
    "Verif.GbCalc.op_order",
    "Verif.GbCalc.op_returnAll",
    "Verif.GbCalc.calculate_keys",
    "Verif.GbCalc.rows_at"
   ],
   "note": "The calculation of one column is C++ and a parameter. Reducing operations without transform and showfilter, and operations with one value per row. A data column with the name of a key is shown as the key."
  },
  {
   "property": "C138",
   "status": "partial",
   "theorems": [
    "Verif.GbCalc.op_data",
    "Verif.GbCalc.op_only",
    "Verif.GbCalc.op_text_counterexample"
   ],
   "note": "Holds for lists; a single name also keeps columns whose name is a part of it (counterexample)."
  },
  {
   "property": "C139",
   "status": "proved",
   "theorems": [
    "Verif.GbCalc.headers_length",
    "Verif.GbCalc.headers_names"
   ],
   "note": ""
  },
  {
   "property": "C14",
   "status": "partial",
   "theorems": [
    "Verif.Struct.col_map_correct_partial",
    "Verif.Struct.col_map_succeeds",
    "Verif.Struct.col_map_direct_chain_counterexample",
    "Verif.Struct.col_map_not_atomic_counterexample"
   ],
   "note": "Values, names and count for every mix of chains and cycles, and success whenever the request makes sense. The one exception is the code's own bug: when no new name exists and a new name is also a (missing) old name (counterexample)."
  },
  {
   "property": "C140",
   "status": "partial",
   "theorems": [
    "Verif.GbCalc.cat_arrays_partial",
    "Verif.GbCalc.gb_list_partial",
    "Verif.GbCalc.headers_distinct",
    "Verif.GbCalc.cat_arrays_counterexample",
    "Verif.GbCalc.cat_keyname_counterexample",
    "Verif.GbCalc.cat_second_counterexample",
    "Verif.GbCalc.cat_tables_counterexample",
    "Verif.GbCalc.gb_tuple_counterexample"
   ],
   "note": "Holds for lists if no repeated name is another repeated name and digits, and for names other than the keys. Otherwise arrays are silently lost; also a second argument, the second of several Datasets, and tuples given to a GroupBy (counterexamples)."
  },
  {
   "property": "C141",
   "status": "proved",
   "theorems": [
    "Verif.GbCalc.select_op",
    "Verif.GbCalc.cat_table"
   ],
   "note": "Selections without repetition."
  },
  {
   "property": "C142",
   "status": "partial",
   "theorems": [
    "Verif.GbCalc.agg_list_partial",
    "Verif.GbCalc.agg_dict_partial",
    "Verif.GbCalc.agg_refuses",
    "Verif.GbCalc.agg_counterexample"
   ],
   "note": "count and nth, which are listed, raise; operations asked for a key column are left out (counterexample). All others in full."
  },
  {
   "property": "C143",
   "status": "proved",
   "theorems": [
    "Verif.GbCalc.quantParam_roundtrip",
    "Verif.GbCalc.rollingParam_roundtrip"
   ],
   "note": "Quantiles as fractions; the rounding of the floating point product is not modelled."
  },
  {
   "property": "C144",
   "status": "proved",
   "theorems": [
    "Verif.GbCalc.quant_columns",
    "Verif.GbCalc.precision_distinct"
   ],
   "note": "Python's number format is a parameter: texts without _, q, p, and different for different quantiles at some precision. If a key has the name of a result an exception is raised (quant_counterexample)."
  },
  {
   "property": "C145",
   "status": "partial",
   "theorems": [
    "Verif.GbCalc.countRows_partial",
    "Verif.GbCalc.countRows_counterexample"
   ],
   "note": "For rows in a group; a filtered row gets the count of the last group (counterexample)."
  },
  {
   "property": "C146",
   "status": "partial",
   "theorems": [
    "Verif.MSet.run_sameRows_partial",
    "Verif.MSet.init_sameRows",
    "Verif.MSet.assign_refused",
    "Verif.MSet.attr_rows_counterexample",
    "Verif.MSet.zero_rows_counterexample"
   ],
   "note": "Holds for containers with at least one row if attributes are not assigned to an empty Multiset; otherwise different numbers of rows are accepted (counterexamples)."
  },
  {
   "property": "C147",
   "status": "partial",
   "theorems": [
    "Verif.MSet.setItem_at",
    "Verif.MSet.setItems_partial",
    "Verif.MSet.setItems_short_counterexample",
    "Verif.MSet.setItems_torn_counterexample"
   ],
   "note": "In full for one name; a list with fewer values leaves items unassigned without a message, and a value that does not fit leaves the earlier ones assigned (counterexamples)."
  },
  {
   "property": "C148",
   "status": "proved",
   "theorems": [
    "Verif.MSet.get_list",
    "Verif.MSet.get_item"
   ],
   "note": "Lists of different names."
  },
  {
   "property": "C149",
   "status": "partial",
   "theorems": [
    "Verif.MSet.get_column_partial",
    "Verif.MSet.get_column_one",
    "Verif.MSet.multiget_list",
    "Verif.MSet.get_one_counterexample",
    "Verif.MSet.get_pos_counterexample",
    "Verif.MSet.multiget_text_counterexample"
   ],
   "note": "In full for several rows and names that are no item at any depth, and for multiget with a list. One row of one column, positions and masks raise; multiget with a text looks for its characters."
  },
  {
   "property": "C15",
   "status": "partial",
   "theorems": [
    "Verif.Items.deep_copy_correct",
    "Verif.Items.deep_copy_independent",
    "Verif.Items.shallow_copy_correct",
    "Verif.Items.shallow_copy_independent_partial",
    "Verif.Items.shallow_copy_no_attributes_independent",
    "Verif.Items.shallow_copy_label_counterexample",
    "Verif.Items.column_subset_label_counterexample",
    "Verif.Items.copy_drops_attribute_counterexample"
   ],
   "note": "Deep copies are independent under every interleaving of operations. Shallow copies share attribute objects: label and attribute changes leak (counterexamples); all other operations are independent."
  },
  {
   "property": "C150",
   "status": "partial",
   "theorems": [
    "Verif.MSet.headers_partial",
    "Verif.MSet.headersOne_shows",
    "Verif.MSet.headers_nested_counterexample",
    "Verif.MSet.headers_key_counterexample"
   ],
   "note": "In full for Multisets of Datasets that all have the keys; with Multisets inside columns are shown below wrong names and others not at all."
  },
  {
   "property": "C151",
   "status": "proved",
   "theorems": [
    "Verif.MSet.flatten_side"
   ],
   "note": "Joined names are taken to be allowed names of columns."
  },
  {
   "property": "C152",
   "status": "proved",
   "theorems": [
    "Verif.MSet.cascade_exact",
    "Verif.MSet.labelFixup_first"
   ],
   "note": "Results with rows (C146)."
  },
  {
   "property": "C153",
   "status": "proved",
   "theorems": [
    "Verif.MSet.flatten_below"
   ],
   "note": "Texts stored in a column are read back as they were written (a hypothesis)."
  },
  {
   "property": "C154",
   "status": "partial",
   "theorems": [
    "Verif.MSet.flatten_done",
    "Verif.MSet.flatten_unlabelled",
    "Verif.MSet.flatten_unlabelled_counterexample",
    "Verif.MSet.flatten_step_counterexample",
    "Verif.MSet.flatten_self_counterexample",
    "Verif.MSet.flatten_labels_only_counterexample",
    "Verif.MSet.flatten_labels_mixed_counterexample",
    "Verif.MSet.flatten_empty_counterexample"
   ],
   "note": "Works for Datasets with labels and names without the delimiter. Without labels it always raises; names may collide in between though the final ones differ; label values are not compared, so rows of different labels are put side by side."
  },
  {
   "property": "C155",
   "status": "partial",
   "theorems": [
    "Verif.MSet.flatten_below_done",
    "Verif.MSet.flatten_below_unlabelled_counterexample",
    "Verif.MSet.flatten_below_unicode_counterexample",
    "Verif.MSet.flatten_empty_counterexample"
   ],
   "note": "Works without Multisets inside, and with them if there are labels and all names are ASCII; otherwise it raises (counterexamples)."
  },
  {
   "property": "C156",
   "status": "proved",
   "theorems": [
    "Verif.CatNew.newOfValues_rows",
    "Verif.CatNew.newOfValues_categories",
    "Verif.CatNew.newOfArrays_ok_iff",
    "Verif.CatNew.newOfArrays_wf"
   ],
   "note": "Fewer than 2^63 rows. Grouping and sorting in C++ are modelled by their documented results."
  },
  {
   "property": "C157",
   "status": "partial",
   "theorems": [
    "Verif.CatNew.newOfArrays_rows_partial",
    "Verif.CatNew.newOfArrays_categories_partial",
    "Verif.CatNew.newOfArrays_ok_iff",
    "Verif.CatNew.newOfArrays_names_counterexample"
   ],
   "note": "Holds if no array is named key_c<number>; a repeated name is replaced by such a name, which may take the place of another array (counterexample)."
  },
  {
   "property": "C158",
   "status": "partial",
   "theorems": [
    "Verif.CatNew.newOfMembers_rows",
    "Verif.CatNew.newOfMembers_ok_partial",
    "Verif.CatNew.newOfMembers_empty_counterexample"
   ],
   "note": "In full but for base index 0 without rows, which raises (counterexample)."
  },
  {
   "property": "C159",
   "status": "partial",
   "theorems": [
    "Verif.CatNew.newOfCodes_rows_partial",
    "Verif.CatNew.newOfCodes_ok_partial",
    "Verif.CatNew.newOfCodes_unsigned_exact",
    "Verif.CatNew.newOfCodes_wf",
    "Verif.CatNew.newOfCodes_unsigned_counterexample"
   ],
   "note": "In full for signed codes. Unsigned codes wrap around before they are checked, so codes out of range may be accepted and show a category (counterexample)."
  },
  {
   "property": "C16",
   "status": "proved",
   "theorems": [
    "Verif.Items.label_set_get",
    "Verif.Items.label_set_get_distinct",
    "Verif.Items.label_remove",
    "Verif.Items.labels_exist",
    "Verif.Items.history_refines"
   ],
   "note": "For a name given twice the last mention counts."
  },
  {
   "property": "C160",
   "status": "proved",
   "theorems": [
    "Verif.CatNew.newOfPandas_rows"
   ],
   "note": "The number of categories fits the integer type of the codes, as pandas chooses it."
  },
  {
   "property": "C161",
   "status": "proved",
   "theorems": [
    "Verif.CatNew.select_rows",
    "Verif.CatNew.select_ok_iff"
   ],
   "note": "For base index 0 the invalid code of the type is written as that of int8."
  },
  {
   "property": "C162",
   "status": "partial",
   "theorems": [
    "Verif.CatNew.copy_rows_partial",
    "Verif.CatNew.copy_base0_exact",
    "Verif.CatNew.copy_base0_counterexample"
   ],
   "note": "Base index 1; a copy of base index 0 has base index 1 and every row shows the category before its own (counterexample)."
  },
  {
   "property": "C163",
   "status": "partial",
   "theorems": [
    "Verif.CatNew.select_isnan_partial",
    "Verif.CatNew.select_isnan_exact",
    "Verif.CatNew.select_invalid_counterexample"
   ],
   "note": "Only if no row is invalid: indexing and copying lose the invalid category (counterexample)."
  },
  {
   "property": "C164",
   "status": "proved",
   "theorems": [
    "Verif.CatNew.isnan_rows"
   ],
   "note": "Categoricals of one key."
  },
  {
   "property": "C165",
   "status": "partial",
   "theorems": [
    "Verif.CatNew.compare_partial",
    "Verif.CatNew.compare_raises_exact",
    "Verif.CatNew.compare_unordered_counterexample",
    "Verif.CatNew.compare_copy_counterexample"
   ],
   "note": "Holds if the categories are known to be sorted. Otherwise codes are compared, and nothing is refused, not even with ordered=False (counterexamples)."
  },
  {
   "property": "C166",
   "status": "proved",
   "theorems": [
    "Verif.CatNew.fromCategory_iff",
    "Verif.CatNew.fromCategory_none",
    "Verif.CatNew.fromBin_fromCategory"
   ],
   "note": "Categoricals of one key."
  },
  {
   "property": "C167",
   "status": "partial",
   "theorems": [
    "Verif.CatNew.fromCategoryTuple_partial",
    "Verif.CatNew.fromCategoryTuple_missing_exact",
    "Verif.CatNew.fromCategoryTuple_counterexample"
   ],
   "note": "Tuples that are categories; others get a code instead of raising (counterexample)."
  },
  {
   "property": "C168",
   "status": "partial",
   "theorems": [
    "Verif.CatNew.invalidSet_partial",
    "Verif.CatNew.invalidSet_bytes_counterexample"
   ],
   "note": "Strings; bytes raise since the decoded text is not used (counterexample)."
  },
  {
   "property": "C169",
   "status": "proved",
   "theorems": [
    "Verif.NpOps.where_rows",
    "Verif.NpOps.where_exact",
    "Verif.NpOps.where_integers",
    "Verif.NpOps.rounds_exists"
   ],
   "note": "The conversion to a type is any function that keeps what the type can hold (such functions exist)."
  },
  {
   "property": "C17",
   "status": "proved",
   "theorems": [
    "Verif.Fill.fill_forward_correct",
    "Verif.Fill.fill_forward_rejects",
    "Verif.Fill.filledFrom_unique"
   ],
   "note": "All kernels (float/int, limited/unlimited); the specification determines the output uniquely."
  },
  {
   "property": "C170",
   "status": "partial",
   "theorems": [
    "Verif.NpOps.where_exact",
    "Verif.NpOps.where_refused",
    "Verif.NpOps.where_float_counterexample",
    "Verif.NpOps.where_floats_counterexample",
    "Verif.NpOps.where_length_counterexample"
   ],
   "note": "Only for numbers that the common type can hold: a Python float is taken for a float16 whatever its digits, so it is rounded to float32 beside an int16 array or a large float; conditions of 0 or 1 rows accept other lengths (counterexamples)."
  },
  {
   "property": "C171",
   "status": "partial",
   "theorems": [
    "Verif.NpOps.where_categorical",
    "Verif.NpOps.where_base0_counterexample",
    "Verif.NpOps.where_mapping_counterexample"
   ],
   "note": "In full for two Categoricals of one key with base index 1; with base index 0 and with mappings wrong categories are shown (counterexamples). Several keys are not modelled."
  },
  {
   "property": "C172",
   "status": "proved",
   "theorems": [
    "Verif.NpOps.unique_arrays",
    "Verif.NpOps.unique_ok_iff"
   ],
   "note": "Fewer than 2^63 rows, no array named key_c<number> (see C157). Grouping in C++ is modelled by its documented result."
  },
  {
   "property": "C173",
   "status": "partial",
   "theorems": [
    "Verif.NpOps.unique_list_partial",
    "Verif.NpOps.unique_lists_partial",
    "Verif.NpOps.unique_empty_counterexample",
    "Verif.NpOps.unique_dtype_counterexample"
   ],
   "note": "In full for lists that are not empty; the empty list raises, a type as dtype raises and names of types are ignored (counterexamples)."
  },
  {
   "property": "C174",
   "status": "partial",
   "theorems": [
    "Verif.NpOps.uniqueCat_partial",
    "Verif.NpOps.uniqueCat_base0_counterexample",
    "Verif.NpOps.uniqueCat_unused_counterexample"
   ],
   "note": "One key, base index 1, every category with rows. Otherwise positions are one too great, unused categories are returned, or it raises (counterexamples)."
  },
  {
   "property": "C175",
   "status": "proved",
   "theorems": [
    "Verif.NpOps.map_rows",
    "Verif.NpOps.mapOld_rows"
   ],
   "note": "The keys of a dictionary are all different."
  },
  {
   "property": "C176",
   "status": "partial",
   "theorems": [
    "Verif.NpOps.count_partial",
    "Verif.NpOps.count_name_counterexample"
   ],
   "note": "In full for arrays not named Count; the values of such an array are replaced by the numbers (counterexample)."
  },
  {
   "property": "C177",
   "status": "proved",
   "theorems": [
    "Verif.NpOps.mask_rows"
   ],
   "note": "One of the first two arguments is an array. The operation on two masks (C++) is the documented one."
  },
  {
   "property": "C178",
   "status": "partial",
   "theorems": [
    "Verif.NpOps.mask_inplace_partial",
    "Verif.NpOps.mask_xori_counterexample",
    "Verif.NpOps.mask_single_counterexample"
   ],
   "note": "In full but for mask_xori with the first array again from the third place on; with one argument the array itself is returned (counterexamples)."
  },
  {
   "property": "C179",
   "status": "proved",
   "theorems": [
    "Verif.NpOps.cat2keys_categories",
    "Verif.NpOps.cat2keys_names",
    "Verif.NpOps.cat2keys_rows"
   ],
   "note": "Codes are those of Categoricals with base index 1, as documented."
  },
  {
   "property": "C18",
   "status": "proved",
   "theorems": [
    "Verif.Fill.fill_backward_eq_reverse_forward",
    "Verif.Fill.fill_backward_correct"
   ],
   "note": ""
  },
  {
   "property": "C180",
   "status": "partial",
   "theorems": [
    "Verif.NpOps.minScalarType_holds_partial",
    "Verif.NpOps.minScalarType_least",
    "Verif.NpOps.minScalarType_none",
    "Verif.NpOps.minScalarType_counterexample"
   ],
   "note": "Fails with prefer_signed for 2^7, 2^15, 2^31 and 2^63 (counterexample)."
  },
  {
   "property": "C181",
   "status": "partial",
   "theorems": [
    "Verif.NpOps.logicalCommon_holds_partial",
    "Verif.NpOps.logicalCommon_counterexample"
   ],
   "note": "Negative integers with unsigned arrays give the unsigned type (counterexample)."
  },
  {
   "property": "C182",
   "status": "partial",
   "theorems": [
    "Verif.NpOps.cat2keys_invalid_partial",
    "Verif.NpOps.cat2keys_filter_counterexample",
    "Verif.NpOps.cat2keys_join_counterexample",
    "Verif.NpOps.cat2keys_inv_counterexample"
   ],
   "note": "In full for rows that pass of keys with one text column; rows that do not pass look invalid, and different categories may get equal labels (counterexamples)."
  },
  {
   "property": "C183",
   "status": "proved",
   "theorems": [
    "Verif.NpOps.sample_rows",
    "Verif.NpOps.sample_given",
    "Verif.NpOps.sample_mask_length"
   ],
   "note": "The random choice is any function that draws without replacement."
  },
  {
   "property": "C184",
   "status": "proved",
   "theorems": [
    "Verif.Arrow.int_round_trip",
    "Verif.Arrow.plain_round_trip"
   ],
   "note": "pyarrow is modelled by its documented results."
  },
  {
   "property": "C185",
   "status": "partial",
   "theorems": [
    "Verif.Arrow.fromArrowInt_rows_partial",
    "Verif.Arrow.fromArrowInt_nulls_exact",
    "Verif.Arrow.fromArrowInt_counterexample",
    "Verif.Arrow.fromArrow_plain_rows"
   ],
   "note": "In full but for integer arrays with nulls in which the invalid value of the type occurs as a number: after widening, nulls are that number (counterexample)."
  },
  {
   "property": "C186",
   "status": "proved",
   "theorems": [
    "Verif.Arrow.fromArrowInt_ok_iff",
    "Verif.Arrow.fromArrowInt_type"
   ],
   "note": ""
  },
  {
   "property": "C187",
   "status": "partial",
   "theorems": [
    "Verif.Arrow.text_round_trip_partial",
    "Verif.Arrow.toArrowText_refused",
    "Verif.Arrow.text_counterexample",
    "Verif.Arrow.fixed_round_trip"
   ],
   "note": "Bytes that are not ASCII are refused (counterexample) unless preserve_fixed_bytes is given."
  },
  {
   "property": "C188",
   "status": "partial",
   "theorems": [
    "Verif.Arrow.fromArrowText_exact",
    "Verif.Arrow.fromArrowText_rows_partial",
    "Verif.Arrow.fromArrowText_counterexample",
    "Verif.Arrow.fromArrowFixed_rows_partial",
    "Verif.Arrow.fromArrowFixed_counterexample"
   ],
   "note": "NUL characters at the end are lost, and of a sliced fixed-size binary array the whole buffer is returned (counterexamples)."
  },
  {
   "property": "C189",
   "status": "partial",
   "theorems": [
    "Verif.Arrow.cat_round_trip_partial",
    "Verif.Arrow.toDict_base0_exact",
    "Verif.Arrow.cat_base0_counterexample"
   ],
   "note": "Base index 1. With base index 0 every row gets the next category, or it raises (exact theorem and counterexample)."
  },
  {
   "property": "C19",
   "status": "partial",
   "theorems": [
    "Verif.Cum.cummin_int_skipna",
    "Verif.Cum.cummax_int_skipna",
    "Verif.Cum.cummin_float_skipna",
    "Verif.Cum.cummax_float_skipna",
    "Verif.Cum.cummin_float_noskip",
    "Verif.Cum.cummax_float_noskip",
    "Verif.Cum.cummin_signed_noskip_partial",
    "Verif.Cum.cummax_unsigned_noskip_partial",
    "Verif.Cum.cummax_signed_noskip_counterexample",
    "Verif.Cum.cummin_unsigned_noskip_counterexample"
   ],
   "note": "Proved for skipna=True and for floats; for integers with skipna=False the code violates the property for cummax on signed and cummin on unsigned dtypes (counterexamples), the other two combinations are proved."
  },
  {
   "property": "C190",
   "status": "partial",
   "theorems": [
    "Verif.Arrow.fromDictOne_rows_partial",
    "Verif.Arrow.fromDict_signed_counterexample",
    "Verif.Arrow.fromDict_nulls_counterexample"
   ],
   "note": "In full but for the greatest index of the type: refused for signed indices with larger dictionaries, and confused with null for unsigned ones (counterexamples)."
  },
  {
   "property": "C191",
   "status": "partial",
   "theorems": [
    "Verif.Arrow.fromDict_rows_partial",
    "Verif.Arrow.fromDict_empty_counterexample"
   ],
   "note": "As C190; arrays without chunks are refused (counterexample)."
  },
  {
   "property": "C192",
   "status": "partial",
   "theorems": [
    "Verif.Arrow.multi_counterexample",
    "Verif.Arrow.multi_one_partial"
   ],
   "note": "Fails: such Categoricals are never read, and not written if a key is an array of numbers. Only dictionaries of structs with one field are read."
  },
  {
   "property": "C193",
   "status": "partial",
   "theorems": [
    "Verif.Arrow.mapped_round_trip_partial",
    "Verif.Arrow.mapped_null_exact",
    "Verif.Arrow.mapped_counterexample"
   ],
   "note": "Codes and names are kept unless the invalid code is named; codes without a name are named by empty text afterwards (counterexamples)."
  },
  {
   "property": "C194",
   "status": "proved",
   "theorems": [
    "Verif.Arrow.date_round_trip"
   ],
   "note": ""
  },
  {
   "property": "C195",
   "status": "partial",
   "theorems": [
    "Verif.Arrow.fromArrowDate_exact",
    "Verif.Arrow.fromArrowDate_rows_partial",
    "Verif.Arrow.fromArrowDate_counterexample"
   ],
   "note": "In full but for 1970-01-01, which becomes invalid, and arrays without chunks (counterexample)."
  },
  {
   "property": "C196",
   "status": "partial",
   "theorems": [
    "Verif.Arrow.dtn_round_trip_partial",
    "Verif.Arrow.dtn_counterexample"
   ],
   "note": "Times made with time zone UTC or GMT; others are shifted, and the time zone of display is lost (counterexample)."
  },
  {
   "property": "C197",
   "status": "partial",
   "theorems": [
    "Verif.Arrow.fromArrowDtn_rows_partial",
    "Verif.Arrow.fromArrowDtn_ok_iff",
    "Verif.Arrow.fromArrowDtn_zone_exact",
    "Verif.Arrow.fromArrowDtn_counterexample"
   ],
   "note": "Time zones UTC and GMT. For others instants are taken for wall clock times and nulls become times (exact theorem and counterexample)."
  },
  {
   "property": "C198",
   "status": "partial",
   "theorems": [
    "Verif.Arrow.fromArrowSpan_rows_partial",
    "Verif.Arrow.span_round_trip_partial",
    "Verif.Arrow.span_counterexample"
   ],
   "note": "Whole nanoseconds up to 2^53; larger ones are refused, fractions are cut (counterexample)."
  },
  {
   "property": "C199",
   "status": "proved",
   "theorems": [
    "Verif.Arrow.toTable_columns",
    "Verif.Arrow.table_round_trip"
   ],
   "note": "Conversion of a column is any function; C184 - C198 say which columns come back."
  },
  {
   "property": "C20",
   "status": "proved",
   "theorems": [
    "Verif.GbNumba.core_split_correct",
    "Verif.GbNumba.groupby_schedule_independent"
   ],
   "note": "Machine with atomic loads and stores; any core count, any interleaving, arbitrary contents of uninitialised buffers."
  },
  {
   "property": "C200",
   "status": "partial",
   "theorems": [
    "Verif.Arrow.fromTable_columns_partial",
    "Verif.Arrow.fromTable_counterexample"
   ],
   "note": "Different column names; of two columns with one name only the last is kept (counterexample)."
  },
  {
   "property": "C201",
   "status": "proved",
   "theorems": [
    "Verif.Pandas.toPandasInt_shows",
    "Verif.Pandas.int_round_trip"
   ],
   "note": ""
  },
  {
   "property": "C202",
   "status": "partial",
   "theorems": [
    "Verif.Pandas.plain_shows_exact",
    "Verif.Pandas.plain_counterexample"
   ],
   "note": "Exactly the columns without missing values (exact theorem and counterexample)."
  },
  {
   "property": "C203",
   "status": "partial",
   "theorems": [
    "Verif.Pandas.fromPandasInt_exact",
    "Verif.Pandas.fromPandasInt_type",
    "Verif.Pandas.fromPandasInt_counterexample"
   ],
   "note": "Exactly the columns without the number that is riptable's missing value; it is lost silently (counterexample)."
  },
  {
   "property": "C204",
   "status": "partial",
   "theorems": [
    "Verif.Pandas.date_days_partial",
    "Verif.Pandas.date_counterexample"
   ],
   "note": "Days are kept as numbers; the type is lost and day 0 is a number (counterexample)."
  },
  {
   "property": "C205",
   "status": "proved",
   "theorems": [
    "Verif.Pandas.text_round_trip"
   ],
   "note": "Texts without NUL at the end, as numpy arrays hold them."
  },
  {
   "property": "C206",
   "status": "partial",
   "theorems": [
    "Verif.Pandas.nulls_exact",
    "Verif.Pandas.nulls_counterexample"
   ],
   "note": "Texts are kept; missing cells become the texts 'None' and 'nan' (exact theorem and counterexample)."
  },
  {
   "property": "C207",
   "status": "partial",
   "theorems": [
    "Verif.Pandas.ints_partial",
    "Verif.Pandas.objects_counterexample"
   ],
   "note": "Columns of integers up to 2^53 and missing cells. Mixed columns depend on their first cell (counterexample)."
  },
  {
   "property": "C208",
   "status": "proved",
   "theorems": [
    "Verif.Pandas.fromPandasCat_shows"
   ],
   "note": ""
  },
  {
   "property": "C209",
   "status": "proved",
   "theorems": [
    "Verif.Pandas.cat_round_trip"
   ],
   "note": ""
  },
  {
   "property": "C21",
   "status": "partial",
   "theorems": [
    "Verif.GbNumba.groupby_schedule_independent",
    "Verif.GbNumba.nb_sum_correct",
    "Verif.GbNumba.nb_sum_end_to_end",
    "Verif.GbNumba.nb_min_int_end_to_end_partial",
    "Verif.GbNumba.nb_sum_permutation",
    "Verif.GbNumba.nb_min_int_partial",
    "Verif.GbNumba.nb_min_float_partial",
    "Verif.GbNumba.nb_min_float_after_nan",
    "Verif.GbNumba.nb_sum_invalid_counterexample",
    "Verif.GbNumba.nb_min_nan_counterexample",
    "Verif.GbNumba.nb_min_invalid_counterexample"
   ],
   "note": "Sum over exact addition for all rows; the code also adds invalids. Min for groups without NaN/invalids; with them the code forgets everything before (counterexamples)."
  },
  {
   "property": "C210",
   "status": "partial",
   "theorems": [
    "Verif.Pandas.base0_exact",
    "Verif.Pandas.base0_counterexample"
   ],
   "note": "Exactly the Categoricals whose codes are positions or -1; missing rows are refused (counterexample)."
  },
  {
   "property": "C211",
   "status": "proved",
   "theorems": [
    "Verif.Pandas.dtn_round_trip"
   ],
   "note": ""
  },
  {
   "property": "C212",
   "status": "partial",
   "theorems": [
    "Verif.Pandas.toPandasDtn_exact",
    "Verif.Pandas.dtn_zero_counterexample"
   ],
   "note": "Exactly the columns without 0, which riptable shows as invalid (counterexample)."
  },
  {
   "property": "C213",
   "status": "partial",
   "theorems": [
    "Verif.Pandas.fromPandasDtn_partial",
    "Verif.Pandas.fromPandasDtn_counterexample"
   ],
   "note": "Columns in nanoseconds, of known time zones, without 1970-01-01. Others are misread or refused (counterexample)."
  },
  {
   "property": "C214",
   "status": "partial",
   "theorems": [
    "Verif.Pandas.span_round_trip_partial",
    "Verif.Pandas.span_counterexample"
   ],
   "note": "Whole nanoseconds up to 2^53; fractions are cut (counterexample)."
  },
  {
   "property": "C215",
   "status": "partial",
   "theorems": [
    "Verif.Pandas.fromPandasSpan_partial",
    "Verif.Pandas.fromPandasSpan_counterexample"
   ],
   "note": "Columns in nanoseconds up to 2^53; other units are misread (counterexample)."
  },
  {
   "property": "C216",
   "status": "proved",
   "theorems": [
    "Verif.Pandas.toFrame_columns",
    "Verif.Pandas.frame_round_trip"
   ],
   "note": "Conversion of a column is any function; C201 - C215 say which columns come back."
  },
  {
   "property": "C217",
   "status": "partial",
   "theorems": [
    "Verif.Pandas.fromFrame_columns_partial",
    "Verif.Pandas.fromFrame_accepts_exact",
    "Verif.Pandas.fromFrame_counterexample"
   ],
   "note": "Different names that riptable allows; otherwise columns are lost or the frame is refused (counterexample)."
  },
  {
   "property": "C218",
   "status": "proved",
   "theorems": [
    "Verif.NanoObj.display_correct",
    "Verif.NanoObj.instants_kept",
    "Verif.NanoObj.results_kept"
   ],
   "note": "The clock is exact except at the instants of changing the clocks (C33)."
  },
  {
   "property": "C219",
   "status": "partial",
   "theorems": [
    "Verif.NanoObj.zones_exact",
    "Verif.NanoObj.zones_partial",
    "Verif.NanoObj.zones_counterexample"
   ],
   "note": "Exactly which objects change is proved: all views and scalars taken from the array, and what it is a view of (counterexample). In full while set_timezone is called on arrays without views and scalars."
  },
  {
   "property": "C22",
   "status": "partial",
   "theorems": [
    "Verif.Str.strlen_correct",
    "Verif.Str.upper_correct",
    "Verif.Str.lower_correct",
    "Verif.Str.upper_idempotent",
    "Verif.Str.upChar_lowChar",
    "Verif.Str.strlen_nul_counterexample"
   ],
   "note": "Every interleaving of the rows. strlen: rows without embedded NUL (numpy keeps embedded NULs; counterexample)."
  },
  {
   "property": "C220",
   "status": "proved",
   "theorems": [
    "Verif.NanoObj.hstack_correct",
    "Verif.NanoObj.zones_exact"
   ],
   "note": "hstack of one array is the array itself."
  },
  {
   "property": "C221",
   "status": "partial",
   "theorems": [
    "Verif.NanoObj.isnan_exact",
    "Verif.NanoObj.isnan_counterexample"
   ],
   "note": "Exactly the times that are not before 1970, and the invalid ones (exact theorem and counterexample)."
  },
  {
   "property": "C222",
   "status": "partial",
   "theorems": [
    "Verif.NanoObj.repeat_partial",
    "Verif.NanoObj.repeat_shifted",
    "Verif.NanoObj.repeat_counterexample"
   ],
   "note": "Times made with from_tz UTC or GMT. For all other zones but Dublin every valid time is shifted (theorem and counterexample)."
  },
  {
   "property": "C223",
   "status": "partial",
   "theorems": [
    "Verif.NanoObj.scalarOp_partial",
    "Verif.NanoObj.scalarOp_counterexample"
   ],
   "note": "Times from 1970 on, valid spans; others give invalid or wrong times (counterexample)."
  },
  {
   "property": "C224",
   "status": "partial",
   "theorems": [
    "Verif.NanoObj.scalarOp_zone_exact",
    "Verif.NanoObj.scalarOp_zone_counterexample"
   ],
   "note": "Only for New York, which every result is displayed in (exact theorem and counterexample)."
  },
  {
   "property": "C225",
   "status": "partial",
   "theorems": [
    "Verif.NanoObj.newStart_partial",
    "Verif.NanoObj.newStart_counterexample"
   ],
   "note": "Valid spans and dates; invalid ones become times (counterexample)."
  },
  {
   "property": "C226",
   "status": "proved",
   "theorems": [
    "Verif.DsOps.rows_even"
   ],
   "note": "Over all histories; which arrays can be converted is any predicate."
  },
  {
   "property": "C227",
   "status": "proved",
   "theorems": [
    "Verif.DsOps.assign_correct"
   ],
   "note": "For any conversion that accepts equal rows if it accepts one."
  },
  {
   "property": "C228",
   "status": "partial",
   "theorems": [
    "Verif.DsOps.first_column_partial",
    "Verif.DsOps.first_array_exact",
    "Verif.DsOps.first_column_counterexample",
    "Verif.DsOps.one_value_counterexample"
   ],
   "note": "After histories without exceptions and without head or tail of a Dataset without columns; otherwise first columns are refused (exact condition and counterexamples)."
  },
  {
   "property": "C229",
   "status": "partial",
   "theorems": [
    "Verif.DsOps.convert_partial",
    "Verif.DsOps.convert_int_exact",
    "Verif.DsOps.fraction_lost",
    "Verif.DsOps.bools_become_ints",
    "Verif.DsOps.convert_counterexample"
   ],
   "note": "Arrays of text, of whole numbers, and of numbers beginning with a float. Fractions after a whole number are cut off, other mixtures become text (exact theorems and counterexample)."
  },
  {
   "property": "C23",
   "status": "partial",
   "theorems": [
    "Verif.Str.startswith_correct",
    "Verif.Str.endswith_correct",
    "Verif.Str.contains_correct",
    "Verif.Str.index_correct",
    "Verif.Str.index_any_of_correct",
    "Verif.Str.contains_empty_bytes_counterexample"
   ],
   "note": "All rows and needles that do not end in NUL; fails for the empty bytes needle b'' (counterexample)."
  },
  {
   "property": "C230",
   "status": "partial",
   "theorems": [
    "Verif.DsOps.iterrows_partial",
    "Verif.DsOps.iterrows_exact",
    "Verif.DsOps.iterrows_counterexample"
   ],
   "note": "The row just given; all rows kept show the latest one (exact theorem and counterexample)."
  },
  {
   "property": "C231",
   "status": "proved",
   "theorems": [
    "Verif.DsOps.asrows_correct",
    "Verif.DsOps.row_cells"
   ],
   "note": "asrows of dict, tuple, list, array and Struct; objects are entries of a store."
  },
  {
   "property": "C232",
   "status": "proved",
   "theorems": [
    "Verif.DsOps.gbrows_correct"
   ],
   "note": "Grouping by row number gives the cells of a number in order."
  },
  {
   "property": "C233",
   "status": "partial",
   "theorems": [
    "Verif.DsOps.apply_partial",
    "Verif.DsOps.apply_method",
    "Verif.DsOps.apply_counterexample"
   ],
   "note": "Functions whose name is not a method of Dataset, or check_op=False; otherwise the function is not called (theorem and counterexample)."
  },
  {
   "property": "C234",
   "status": "partial",
   "theorems": [
    "Verif.DsOps.applyAll_partial",
    "Verif.DsOps.applyAll_exact",
    "Verif.DsOps.applyAll_counterexample"
   ],
   "note": "Functions with different capitalized names; otherwise the last one is left (exact theorem and counterexample)."
  },
  {
   "property": "C235",
   "status": "partial",
   "theorems": [
    "Verif.DsOps.imatrixY_partial",
    "Verif.DsOps.imatrixY_counterexample"
   ],
   "note": "As many different names as functions; functions without a name are dropped (counterexample)."
  },
  {
   "property": "C236",
   "status": "partial",
   "theorems": [
    "Verif.DsOps.addMatrix_partial",
    "Verif.DsOps.addMatrix_refused",
    "Verif.DsOps.addMatrix_counterexample"
   ],
   "note": "Different names, as many rows as the Dataset; of columns with the same name the last one is left (counterexample)."
  },
  {
   "property": "C237",
   "status": "partial",
   "theorems": [
    "Verif.Ufunc.binary_ints_partial",
    "Verif.Ufunc.binary_counterexample"
   ],
   "note": "All pairs of integer types but a signed one with uint64, which are calculated as float64 (counterexample: 2^53 + 1 plus 0)."
  },
  {
   "property": "C238",
   "status": "partial",
   "theorems": [
    "Verif.Ufunc.compare_ints_partial",
    "Verif.Ufunc.compare_same",
    "Verif.Ufunc.compare_counterexample"
   ],
   "note": "All pairs of integer types but a signed one with uint64 (counterexample: 2^53 + 1 cannot be both greater than 2^53 and less than 2^53 + 2); arrays of the same type always."
  },
  {
   "property": "C239",
   "status": "partial",
   "theorems": [
    "Verif.Ufunc.compareInt_partial",
    "Verif.Ufunc.compareInt_negative_counterexample",
    "Verif.Ufunc.compareInt_large_counterexample"
   ],
   "note": "Integers that fit into 64 bits with the sign of the array; an unsigned array is compared with a negative integer in an unsigned type, and an int64 array with 2^63 as float64 (counterexamples)."
  },
  {
   "property": "C24",
   "status": "partial",
   "theorems": [
    "Verif.Str.replace_correct",
    "Verif.Str.replace_exact",
    "Verif.Str.replace_empty",
    "Verif.Str.replace_empty_bytes_counterexample"
   ],
   "note": "All rows and pairs; b'' as old is not refused (counterexample)."
  },
  {
   "property": "C240",
   "status": "partial",
   "theorems": [
    "Verif.Ufunc.out_partial",
    "Verif.Ufunc.out_counterexample"
   ],
   "note": "Only if the type of c can hold the inputs too: they are converted to it before calculating (counterexample: 4 times 0.5 into an integer array is not 2)."
  },
  {
   "property": "C241",
   "status": "proved",
   "theorems": [
    "Verif.Ufunc.nansum_filter",
    "Verif.Ufunc.filter_length"
   ],
   "note": "Every way to cut the rows into chunks and every order of the chunks; 64-bit sums that wrap around."
  },
  {
   "property": "C242",
   "status": "proved",
   "theorems": [
    "Verif.Ufunc.mean_filter"
   ],
   "note": "Every schedule; the sum must fit into 64 bits. Division of Python integers taken as exact."
  },
  {
   "property": "C243",
   "status": "proved",
   "theorems": [
    "Verif.Ufunc.var_filter"
   ],
   "note": "Every schedule of both loops, exact arithmetic (rounding not modelled)."
  },
  {
   "property": "C244",
   "status": "partial",
   "theorems": [
    "Verif.Ufunc.nanvar_ddof_partial",
    "Verif.Ufunc.nanvar_ddof_counterexample"
   ],
   "note": "ddof = 1 or no missing value; otherwise np.nanvar is called, for which missing integers are numbers (counterexample)."
  },
  {
   "property": "C245",
   "status": "partial",
   "theorems": [
    "Verif.Ufunc.nansum_axis_partial",
    "Verif.Ufunc.nansum_axis_counterexample"
   ],
   "note": "All axes but 0, without missing values: `if axis:` drops axis 0, and numpy counts missing integers (counterexamples)."
  },
  {
   "property": "C246",
   "status": "partial",
   "theorems": [
    "Verif.Ufunc.nansum_uint64_partial",
    "Verif.Ufunc.nansum_uint64_counterexample"
   ],
   "note": "Sums up to 2^53, for every schedule; numba adds as float64 (counterexample)."
  },
  {
   "property": "C247",
   "status": "partial",
   "theorems": [
    "Verif.SdsStack.filter_ascending_partial",
    "Verif.SdsStack.filter_ints_exact",
    "Verif.SdsStack.filter_empty",
    "Verif.SdsStack.filter_order_counterexample",
    "Verif.SdsStack.filter_repeat_counterexample",
    "Verif.SdsStack.filter_negative_counterexample",
    "Verif.SdsStack.filter_empty_bang_counterexample"
   ],
   "note": "Ascending numbers that are not negative, and empty filters (names without '!'). Exactly: the rows whose number occurs, in the order of the file, once each; negative numbers count from the end of the mask (counterexamples)."
  },
  {
   "property": "C248",
   "status": "partial",
   "theorems": [
    "Verif.SdsStack.filter_empty",
    "Verif.SdsStack.filter_share_ints_exact",
    "Verif.SdsStack.filter_share_counterexample"
   ],
   "note": "Only empty filters: with share= all rows are loaded (proved for every filter with entries)."
  },
  {
   "property": "C249",
   "status": "proved",
   "theorems": [
    "Verif.SdsStack.stack_rows"
   ],
   "note": "All lists of Datasets, relative to the contract of rc.MultiStackFiles and of the grouping functions; checksums assumed to distinguish lists of the same length; names without '!'."
  },
  {
   "property": "C25",
   "status": "partial",
   "theorems": [
    "Verif.Str.substr_correct",
    "Verif.Str.substr_slice",
    "Verif.Str.substr_single",
    "Verif.Str.reverse_correct",
    "Verif.Str.reverse_reverse",
    "Verif.Str.removetrailing_correct",
    "Verif.Str.char_correct",
    "Verif.Str.substr_char_stop_correct",
    "Verif.Str.char_stop_inclusive_counterexample"
   ],
   "note": "Rows without embedded NUL; all bounds. substr_char_stop(inclusive=True) with a longer stop string is wrong (counterexample)."
  },
  {
   "property": "C250",
   "status": "partial",
   "theorems": [
    "Verif.SdsStack.stack_rows",
    "Verif.SdsStack.stack_base0_gap_counterexample",
    "Verif.SdsStack.stack_mapping_gap_counterexample",
    "Verif.SdsStack.stack_mapping_unlabelled_counterexample"
   ],
   "note": "If every file has the column (and, for mappings, they agree and every code has a label); otherwise rows show the first category or the label of code 0 (counterexamples)."
  },
  {
   "property": "C251",
   "status": "partial",
   "theorems": [
    "Verif.SdsStack.stack_rows",
    "Verif.SdsStack.stack_modes_refused",
    "Verif.SdsStack.stack_class_counterexample",
    "Verif.SdsStack.stack_numbers_counterexample",
    "Verif.SdsStack.stack_mixed_counterexample",
    "Verif.SdsStack.stack_bang_counterexample"
   ],
   "note": "Columns of one kind, and Categoricals of different modes. The class of the first file is given to all rows; numbers are taken for codes (counterexamples)."
  },
  {
   "property": "C252",
   "status": "proved",
   "theorems": [
    "Verif.SdsStack.filter_bools",
    "Verif.SdsStack.filter_other_refused"
   ],
   "note": "Contract of the C++ reader: it keeps the rows where the mask is True."
  },
  {
   "property": "C253",
   "status": "proved",
   "theorems": [
    "Verif.SdsStack.stack_modes_refused"
   ],
   "note": "All lists of Datasets."
  },
  {
   "property": "C254",
   "status": "proved",
   "theorems": [
    "Verif.TimeShow.clock_exact",
    "Verif.TimeShow.clock_injective",
    "Verif.TimeShow.spanReads_unique"
   ],
   "note": "Relative to float64 division being the nearest float64 (existence proved: nearest_exists) and to time.gmtime taking the whole second below. Default PRECISION."
  },
  {
   "property": "C255",
   "status": "partial",
   "theorems": [
    "Verif.TimeShow.precision_partial",
    "Verif.TimeShow.precision_counterexample"
   ],
   "note": "Nine and more, zero and less; in between the last digits of the nanoseconds are shown (counterexample: 1.5 s is shown as 00:00:01.000 with precision 3)."
  },
  {
   "property": "C256",
   "status": "proved",
   "theorems": [
    "Verif.TimeShow.stamp_exact"
   ],
   "note": "Relative to Python's calendar and the offsets of the time zone database; 0 and the invalid are shown as Inv."
  },
  {
   "property": "C257",
   "status": "partial",
   "theorems": [
    "Verif.TimeShow.strftime_micro_partial",
    "Verif.TimeShow.strftime_nextday_counterexample"
   ],
   "note": "Whole microseconds from 1970 to 2106, however float64 arithmetic breaks ties; one nanosecond before midnight the next day is written (counterexample)."
  },
  {
   "property": "C258",
   "status": "partial",
   "theorems": [
    "Verif.TimeShow.span_strftime_partial",
    "Verif.TimeShow.span_strftime_day_counterexample"
   ],
   "note": "Spans of less than a day; days are dropped (counterexample: 25 hours are written like one)."
  },
  {
   "property": "C259",
   "status": "partial",
   "theorems": [
    "Verif.TimeShow.hhmmss_partial",
    "Verif.TimeShow.hhmmss_negative_exact",
    "Verif.TimeShow.hhmmss_negative_counterexample"
   ],
   "note": "Spans that are not negative; minus one second gives -4041 (counterexample)."
  },
  {
   "property": "C26",
   "status": "partial",
   "theorems": [
    "Verif.SortCache.order_fresh_partial",
    "Verif.SortCache.order_idempotent",
    "Verif.SortCache.load_sorted_exact",
    "Verif.SortCache.load_sorted_counterexample",
    "Verif.SortCache.dtype_blind_crc_counterexample"
   ],
   "note": "All histories of creating, arbitrarily changing, displaying, saving, loading and deleting Datasets, if no Dataset is saved with a sort set: on loading such a file the first column is taken for the row order (exact statement and counterexample). The checksum must tell contents of different types apart."
  },
  {
   "property": "C260",
   "status": "proved",
   "theorems": [
    "Verif.TimeShow.unit_largest",
    "Verif.TimeShow.unit_close"
   ],
   "note": "Relative to float64 division and the rounding of '.3f' being nearest."
  },
  {
   "property": "C261",
   "status": "proved",
   "theorems": [
    "Verif.TimeShow.clock_format_short_exact"
   ],
   "note": "Relative to float64 division being the nearest float64."
  },
  {
   "property": "C262",
   "status": "partial",
   "theorems": [
    "Verif.Flatten.no_loss_partial",
    "Verif.Flatten.no_loss_counterexample"
   ],
   "note": "For all points of interruption, as long as the place of no _root.sds is taken; otherwise a file of the main folder is overwritten (counterexample). POSIX rename taken as one step."
  },
  {
   "property": "C263",
   "status": "partial",
   "theorems": [
    "Verif.Flatten.whole_or_nothing_partial",
    "Verif.Flatten.skipped_partial",
    "Verif.Flatten.skipped_only_partial",
    "Verif.Flatten.raise_counterexample"
   ],
   "note": "As long as the place of no _root.sds is taken by a file, a file to come, or another folder; otherwise an exception leaves the temporary name (counterexample)."
  },
  {
   "property": "C264",
   "status": "proved",
   "theorems": [
    "Verif.Flatten.all_flat"
   ],
   "note": "The files as a set without repeated names."
  },
  {
   "property": "C265",
   "status": "partial",
   "theorems": [
    "Verif.Flatten.retry_partial",
    "Verif.Flatten.retry_counterexample"
   ],
   "note": "Folders without _root.sds, all points of interruption; with one, _root.sds_temp stays for ever (counterexample)."
  },
  {
   "property": "C266",
   "status": "partial",
   "theorems": [
    "Verif.Ema.plain_partial",
    "Verif.Ema.overflow_exact",
    "Verif.Ema.overflow_counterexample",
    "Verif.Ema.exp_weight"
   ],
   "note": "Exact reals. As long as the exponential is finite between the times and from them to time 0; else every entry is NaN (counterexample: times below -709.79 at rate 1). Values other than infinities."
  },
  {
   "property": "C267",
   "status": "proved",
   "theorems": [
    "Verif.Ema.cumsum"
   ],
   "note": "Exact arithmetic; values other than infinities."
  },
  {
   "property": "C268",
   "status": "partial",
   "theorems": [
    "Verif.Ema.filter_partial",
    "Verif.Ema.filter_nan_exact",
    "Verif.Ema.filter_nan_counterexample"
   ],
   "note": "For rows of the filter without NaN; a NaN there makes all later entries NaN (counterexample), unlike without a filter."
  },
  {
   "property": "C269",
   "status": "partial",
   "theorems": [
    "Verif.Ema.reset_partial",
    "Verif.Ema.masked_row_exact",
    "Verif.Ema.masked_row_counterexample",
    "Verif.Ema.reset_counterexample",
    "Verif.Ema.reset_needs_filter"
   ],
   "note": "Resets count in rows of the filter only (counterexample), and rows out of the filter are decayed, not repeated (counterexample)."
  },
  {
   "property": "C27",
   "status": "partial",
   "theorems": [
    "Verif.Cat.hstack_rows",
    "Verif.Cat.hstack_mapping_partial",
    "Verif.Cat.hstack_base0_filtered_counterexample",
    "Verif.Cat.hstack_code_conflict_counterexample",
    "Verif.Cat.hstack_label_conflict_counterexample",
    "Verif.Cat.hstack_after_replace_counterexample"
   ],
   "note": "All lists of Categoricals with array categories (any label type, base 0 or 1, Python path of the re-indexing, grouping by contract), and of compatible mappings. Parts may have no categories. False for conflicting mappings and base-0 filtered rows (counterexamples)."
  },
  {
   "property": "C270",
   "status": "partial",
   "theorems": [
    "Verif.Ema.shift_partial",
    "Verif.Ema.overflow_counterexample"
   ],
   "note": "As long as the exponentials from the times to 0 are finite (counterexample)."
  },
  {
   "property": "C271",
   "status": "proved",
   "theorems": [
    "Verif.StructCmp.keys_union"
   ],
   "note": "For every behaviour of numpy on arrays that do not fit."
  },
  {
   "property": "C272",
   "status": "partial",
   "theorems": [
    "Verif.StructCmp.right_only",
    "Verif.StructCmp.left_only_partial",
    "Verif.StructCmp.attribute_counterexample"
   ],
   "note": "Unless the right object has an attribute of that name that is no key, such as size of a Dataset (counterexample)."
  },
  {
   "property": "C273",
   "status": "partial",
   "theorems": [
    "Verif.StructCmp.array_exact",
    "Verif.StructCmp.nested_exact",
    "Verif.StructCmp.scalar_exact",
    "Verif.StructCmp.array_counterexample"
   ],
   "note": "Exact for arrays of the same length: True if not empty and the comparison holds everywhere. An array of one element equals longer ones, and != is False for arrays that differ in part (counterexample)."
  },
  {
   "property": "C274",
   "status": "partial",
   "theorems": [
    "Verif.StructCmp.self_equal_exact",
    "Verif.StructCmp.empty_counterexample"
   ],
   "note": "Exactly if there is no empty array inside (counterexample). numpy before 2.2; values without NaN."
  },
  {
   "property": "C275",
   "status": "partial",
   "theorems": [
    "Verif.StructCmp.raises_exact",
    "Verif.StructCmp.raises_counterexample"
   ],
   "note": "The comparison raises where values cannot be compared, against its documentation (counterexample); exactly then."
  },
  {
   "property": "C276",
   "status": "partial",
   "theorems": [
    "Verif.Csv.load_partial",
    "Verif.Csv.load_agree_partial",
    "Verif.Csv.norows_exact",
    "Verif.Csv.norows_counterexample"
   ],
   "note": "For different names, converters that can be called and rows of enough fields. A file without rows is refused by version 2 (counterexample)."
  },
  {
   "property": "C277",
   "status": "partial",
   "theorems": [
    "Verif.Csv.short_refused",
    "Verif.Csv.cut_refused",
    "Verif.Csv.blank_partial",
    "Verif.Csv.blank_counterexample"
   ],
   "note": "Short lines are refused by all versions; blank lines are skipped by versions 1 and 2 and refused by 0 and 3 (counterexample)."
  },
  {
   "property": "C278",
   "status": "partial",
   "theorems": [
    "Verif.Csv.load_partial",
    "Verif.Csv.names_counterexample",
    "Verif.Csv.converter_counterexample"
   ],
   "note": "Only for different names and converters that can be called; with a name that occurs twice a column is lost, and a converter None raises in versions 1 to 3 (counterexamples)."
  },
  {
   "property": "C279",
   "status": "partial",
   "theorems": [
    "Verif.StructEq.same_exact",
    "Verif.StructEq.nan_counterexample",
    "Verif.StructEq.nan_bits_counterexample"
   ],
   "note": "Exactly if no number is NaN; a Struct with a NaN number is not equal to itself, and NaNs in arrays must have the same bits (counterexamples)."
  },
  {
   "property": "C28",
   "status": "partial",
   "theorems": [
    "Verif.Cat.step_spec_partial",
    "Verif.Cat.run_spec_partial",
    "Verif.Cat.locked_unchanged",
    "Verif.Cat.itemOf_correct",
    "Verif.Cat.remove_items_counterexample",
    "Verif.Cat.replace_truncates_counterexample",
    "Verif.Cat.add_replace_items_counterexample"
   ],
   "note": "All histories of edits, as seen through category_array and comparisons, if replacement labels fit the item width. c[i] and expand_array keep using the old label list (counterexamples); longer replacement labels are cut off."
  },
  {
   "property": "C280",
   "status": "partial",
   "theorems": [
    "Verif.StructEq.equal_sound_partial",
    "Verif.StructEq.kind_counterexample",
    "Verif.StructEq.length_counterexample"
   ],
   "note": "For arrays of the same kind whose checksums differ if their memory does. Kinds and lengths are not compared (counterexamples)."
  },
  {
   "property": "C281",
   "status": "partial",
   "theorems": [
    "Verif.StructEq.returns_partial",
    "Verif.StructEq.order_exact",
    "Verif.StructEq.raises_counterexample"
   ],
   "note": "Unless a Struct is compared with a number or text (counterexample)."
  },
  {
   "property": "C282",
   "status": "partial",
   "theorems": [
    "Verif.NpIo.round_trip_partial",
    "Verif.NpIo.order_exact",
    "Verif.NpIo.order_counterexample",
    "Verif.NpIo.name_counterexample"
   ],
   "note": "Up to the order of columns, for names without .npy (counterexamples); the order is kept exactly if the folder is listed in the order of writing."
  },
  {
   "property": "C283",
   "status": "partial",
   "theorems": [
    "Verif.NpIo.raw_partial",
    "Verif.NpIo.category_counterexample"
   ],
   "note": "Columns come back as plain arrays; a Categorical becomes its codes (counterexample)."
  },
  {
   "property": "C284",
   "status": "partial",
   "theorems": [
    "Verif.StructStack.stack_partial",
    "Verif.StructStack.other_exact",
    "Verif.StructStack.conflict_counterexample"
   ],
   "note": "For arrays of one dimension, single values and objects of one class per key; with different classes under a key one of them is lost (counterexample, the code warns). A single Struct is given back unchanged."
  },
  {
   "property": "C285",
   "status": "partial",
   "theorems": [
    "Verif.StructStack.matrix_exact",
    "Verif.StructStack.matrix_counterexample"
   ],
   "note": "Does not hold: arrays of two dimensions end up side by side or raise (counterexample); exact for two Structs."
  },
  {
   "property": "C286",
   "status": "partial",
   "theorems": [
    "Verif.Take2.rows_partial",
    "Verif.Take2.marker_counterexample",
    "Verif.Take2.far_counterexample"
   ],
   "note": "For positions whose product with the number of columns fits 64 bits, and for invalid positions of a FastArray. The invalid marker in a plain ndarray and positions far outside read rows of the matrix (counterexamples)."
  },
  {
   "property": "C287",
   "status": "partial",
   "theorems": [
    "Verif.Take2.default_one",
    "Verif.Take2.default_counterexample"
   ],
   "note": "Holds in one dimension; in two dimensions the default is ignored (counterexample)."
  },
  {
   "property": "C288",
   "status": "proved",
   "theorems": [
    "Verif.Take2.replace_exact"
   ],
   "note": ""
  },
  {
   "property": "C289",
   "status": "partial",
   "theorems": [
    "Verif.Take2.missing_exact",
    "Verif.Take2.missing_counterexample"
   ],
   "note": "Does not hold: ValueError whenever a text is not found, whatever missing is (exact, counterexample)."
  },
  {
   "property": "C29",
   "status": "partial",
   "theorems": [
    "Verif.Cat.setLabel_existing",
    "Verif.Cat.setLabel_new",
    "Verif.Cat.setLabel_new_partial",
    "Verif.Cat.setLabel_label",
    "Verif.Cat.setLabel_rejected",
    "Verif.Cat.filtered_relabelled_counterexample",
    "Verif.Cat.set_then_get_counterexample",
    "Verif.Cat.set_label_raises_counterexample",
    "Verif.Cat.code_overflow_counterexample"
   ],
   "note": "Exact behaviour proved: creating a category also labels all filtered rows (counterexample), so the claim holds without filtered rows; codes must fit their integer type; c[i] does not see the new label."
  },
  {
   "property": "C290",
   "status": "proved",
   "theorems": [
    "Verif.Conv.numbers_exact",
    "Verif.Conv.text_exact",
    "Verif.Conv.keyed_exact",
    "Verif.Conv.category_exact"
   ],
   "note": "astype(float64) of numbers is a parameter."
  },
  {
   "property": "C291",
   "status": "partial",
   "theorems": [
    "Verif.Conv.keyed_compare",
    "Verif.Conv.compare_counterexample",
    "Verif.Conv.bool_counterexample",
    "Verif.Conv.category_counterexample"
   ],
   "note": "Holds for columns with a key; without one the numbers depend on the other values, all True gives 0, and codes of Categoricals count from 1 (counterexamples)."
  },
  {
   "property": "C292",
   "status": "partial",
   "theorems": [
    "Verif.Conv.two_partial",
    "Verif.Conv.two_default",
    "Verif.Conv.fields_partial",
    "Verif.Conv.one_exact",
    "Verif.Conv.count_exact",
    "Verif.Conv.twice_counterexample",
    "Verif.Conv.str_counterexample"
   ],
   "note": "For different names in a list; a name given twice loses a column, a text is taken letter by letter (counterexamples)."
  },
  {
   "property": "C293",
   "status": "partial",
   "theorems": [
    "Verif.Conv.keys_partial",
    "Verif.Conv.keys_refused",
    "Verif.Conv.alias_counterexample",
    "Verif.Conv.name_counterexample",
    "Verif.Conv.nul_counterexample"
   ],
   "note": "For different Datasets, names that are no methods and do not begin with _, keys that do not end with NUL (counterexamples otherwise)."
  },
  {
   "property": "C294",
   "status": "proved",
   "theorems": [
    "Verif.MemberCat.labels_exact",
    "Verif.MemberCat.returns_exact",
    "Verif.MemberCat.mode_exact",
    "Verif.MemberCat.keys_refused"
   ],
   "note": "rc.IsMemberCategoricalFixup is a definition; labels compare by equality."
  },
  {
   "property": "C295",
   "status": "partial",
   "theorems": [
    "Verif.MemberCat.mapped_exact",
    "Verif.MemberCat.mapped_counterexample"
   ],
   "note": "Codes are compared instead of labels, exactly unless the mappings contradict each other (ValueError); counterexample for labels."
  },
  {
   "property": "C296",
   "status": "proved",
   "theorems": [
    "Verif.CatSds.keys_exact",
    "Verif.CatSds.name_counterexample"
   ],
   "note": "Arrays in a file are kept as they are (proved elsewhere for the format); the name of a single key column is not kept (counterexample, not part of the claim)."
  },
  {
   "property": "C297",
   "status": "partial",
   "theorems": [
    "Verif.CatSds.mapping_exact",
    "Verif.CatSds.mapping_partial",
    "Verif.CatSds.mapping_counterexample",
    "Verif.CatSds.empty_counterexample"
   ],
   "note": "Exact for every mapping; holds if no label has two codes, else a code loses its label; an empty mapping cannot be loaded."
  },
  {
   "property": "C298",
   "status": "proved",
   "theorems": [
    "Verif.CatSds.invalid_refused",
    "Verif.CatSds.invalid_kinds",
    "Verif.CatSds.load_refused"
   ],
   "note": ""
  },
  {
   "property": "C299",
   "status": "partial",
   "theorems": [
    "Verif.MergeKeys.list_exact",
    "Verif.MergeKeys.single_exact",
    "Verif.MergeKeys.both_refused",
    "Verif.MergeKeys.merge2_on_exact",
    "Verif.MergeKeys.merge2_on_accepts",
    "Verif.MergeKeys.merge2_sides_partial",
    "Verif.MergeKeys.merge2_sides_counterexample"
   ],
   "note": "For `on` in full; left_on and right_on of different lengths are cut to the shorter by merge2 (counterexample)."
  },
  {
   "property": "C30",
   "status": "partial",
   "theorems": [
    "Verif.Cat.mapping_round_trip_partial",
    "Verif.Cat.mapping_error_unchanged_partial",
    "Verif.Cat.mapping_label_round_trip_partial",
    "Verif.Cat.build_round_trip",
    "Verif.Cat.mstep_codes",
    "Verif.Cat.duplicate_label_counterexample",
    "Verif.Cat.remove_keyerror_counterexample",
    "Verif.Cat.replaced_label_stale_counterexample",
    "Verif.Cat.build_duplicate_counterexample"
   ],
   "note": "All histories in which no label is given to a second code; false otherwise (counterexamples)."
  },
  {
   "property": "C300",
   "status": "proved",
   "theorems": [
    "Verif.MergeKeys.compat_exact",
    "Verif.MergeKeys.compat_symm",
    "Verif.MergeKeys.kind_counterexample"
   ],
   "note": "np.can_cast is a parameter; types of different kinds only warn."
  },
  {
   "property": "C301",
   "status": "partial",
   "theorems": [
    "Verif.SdsPath.prompt_exact",
    "Verif.SdsPath.asks_partial",
    "Verif.SdsPath.stop_exact",
    "Verif.SdsPath.enter_counterexample",
    "Verif.SdsPath.slash_counterexample",
    "Verif.SdsPath.upper_counterexample"
   ],
   "note": "For plain paths and names and answers that are not empty; an empty line counts as a yes, and for names with / or extensions in upper case another file is looked at (counterexamples)."
  },
  {
   "property": "C302",
   "status": "proved",
   "theorems": [
    "Verif.SdsPath.promptMulti_exact",
    "Verif.SdsPath.folder_exact",
    "Verif.SdsPath.folder_overwrite"
   ],
   "note": ""
  },
  {
   "property": "C303",
   "status": "partial",
   "theorems": [
    "Verif.SdsPath.file_exact",
    "Verif.SdsPath.named_partial",
    "Verif.SdsPath.struct_counterexample"
   ],
   "note": "Without a name in full; a Struct without nested containers ignores its name (counterexample)."
  },
  {
   "property": "C304",
   "status": "partial",
   "theorems": [
    "Verif.Regex.call_exact",
    "Verif.Regex.sigs",
    "Verif.Regex.too_many_refused",
    "Verif.Regex.position_counterexample"
   ],
   "note": "Exactly which calls go wrong: positional arguments after the required ones (counterexample: regex_match(regex, False) raises KeyError)."
  },
  {
   "property": "C305",
   "status": "partial",
   "theorems": [
    "Verif.Regex.match_partial",
    "Verif.Regex.replace_partial",
    "Verif.Regex.unique_exact",
    "Verif.Regex.empty_counterexample"
   ],
   "note": "For arrays with elements; empty arrays are refused (counterexample). Python's re is a parameter."
  },
  {
   "property": "C306",
   "status": "partial",
   "theorems": [
    "Verif.Regex.extract_exact",
    "Verif.Regex.cells_partial",
    "Verif.Regex.plain_exact",
    "Verif.Regex.extract_unique",
    "Verif.Regex.default_names",
    "Verif.Regex.names_refused",
    "Verif.Regex.none_counterexample",
    "Verif.Regex.str_counterexample",
    "Verif.Regex.names_counterexample"
   ],
   "note": "Groups that took no part give None, unicode arrays with a pattern without groups raise AttributeError, equal names lose a column (counterexamples)."
  },
  {
   "property": "C307",
   "status": "partial",
   "theorems": [
    "Verif.Regex.items_exact",
    "Verif.Regex.search_partial",
    "Verif.Regex.exclusive_refused",
    "Verif.Regex.bytes_counterexample"
   ],
   "note": "like and regex only for unicode labels with rows; labels of bytes raise TypeError (counterexample)."
  },
  {
   "property": "C308",
   "status": "partial",
   "theorems": [
    "Verif.CatAlign.align_partial",
    "Verif.CatAlign.codes_partial",
    "Verif.CatAlign.base_counterexample"
   ],
   "note": "For one base index; equal categories with different base indices are returned unchanged (counterexample)."
  },
  {
   "property": "C309",
   "status": "partial",
   "theorems": [
    "Verif.CatAlign.pair_partial",
    "Verif.CatAlign.keys_partial",
    "Verif.CatAlign.count_counterexample",
    "Verif.CatAlign.keys_base_counterexample"
   ],
   "note": "For as many key columns on both sides and Categoricals of one base index (counterexamples otherwise)."
  },
  {
   "property": "C31",
   "status": "partial",
   "theorems": [
    "Verif.Cat.compare_eq_correct",
    "Verif.Cat.compare_ne_correct",
    "Verif.Cat.compare_gt_ge_correct",
    "Verif.Cat.compare_lt_le_exact",
    "Verif.Cat.compare_lt_le_partial",
    "Verif.Cat.groupingIsin_exact",
    "Verif.Cat.groupingIsin_partial",
    "Verif.Cat.groupingCount_exact",
    "Verif.Cat.groupingCount_partial",
    "Verif.Cat.groupingCount_showfilter",
    "Verif.Cat.expandArray_correct",
    "Verif.Cat.filtered_less_counterexample",
    "Verif.Cat.filtered_isin_counterexample",
    "Verif.Cat.filtered_count_counterexample",
    "Verif.Cat.count_base0_counterexample",
    "Verif.Cat.expandDict_base0_counterexample",
    "Verif.Cat.compareCats_rows",
    "Verif.Cat.compare_base0_counterexample"
   ],
   "note": "==, !=, >, >= and expand_array hold for all rows; <, <=, Grouping.isin and count(transform) treat filtered rows as stated by the _exact theorems (counterexamples)."
  },
  {
   "property": "C310",
   "status": "partial",
   "theorems": [
    "Verif.PdCat.base_exact",
    "Verif.PdCat.zero_partial",
    "Verif.PdCat.word_exact",
    "Verif.PdCat.apart_partial",
    "Verif.PdCat.int_exact",
    "Verif.PdCat.int_counterexample",
    "Verif.PdCat.label_counterexample",
    "Verif.PdCat.empty_counterexample",
    "Verif.PdCat.default_counterexample"
   ],
   "note": "With a base index in full; with base index zero, the default, missing values share a label with a category that is named so, or with the last row (counterexamples)."
  },
  {
   "property": "C311",
   "status": "partial",
   "theorems": [
    "Verif.StructTree.search_exact",
    "Verif.StructTree.flat_exact",
    "Verif.StructTree.once_partial",
    "Verif.StructTree.case_exact",
    "Verif.StructTree.dot_counterexample"
   ],
   "note": "Paths in full; keys with dots can give one path twice (counterexample). The documentation of case_sensitive says the opposite of its name; the code follows the name."
  },
  {
   "property": "C312",
   "status": "partial",
   "theorems": [
    "Verif.StructTree.all_exact",
    "Verif.StructTree.list_partial",
    "Verif.StructTree.missing_partial",
    "Verif.StructTree.attribute_counterexample"
   ],
   "note": "Without a list in full; the name of a method passes the test for missing columns, and columns before it are converted (counterexample)."
  },
  {
   "property": "C313",
   "status": "partial",
   "theorems": [
    "Verif.StructTree.categories_partial",
    "Verif.StructTree.multikey_counterexample",
    "Verif.StructTree.underscore_counterexample",
    "Verif.StructTree.capital_counterexample"
   ],
   "note": "For names that can be used and Categoricals of one key column; others are left out, or the call fails (counterexamples)."
  },
  {
   "property": "C314",
   "status": "proved",
   "theorems": [
    "Verif.Show.rows_exact",
    "Verif.Show.numbers_exact",
    "Verif.Show.break_cells"
   ],
   "note": ""
  },
  {
   "property": "C315",
   "status": "partial",
   "theorems": [
    "Verif.Show.columns_exact",
    "Verif.Show.width_partial",
    "Verif.Show.sorted_partial",
    "Verif.Show.silent_counterexample",
    "Verif.Show.overflow_counterexample",
    "Verif.Show.sorted_counterexample"
   ],
   "note": "Which columns are shown, in full where the columns on the left leave room; otherwise columns are left out without dots; the column of dots is not counted; more sort columns than fit raise IndexError (counterexamples)."
  },
  {
   "property": "C316",
   "status": "proved",
   "theorems": [
    "Verif.Show.lines_exact",
    "Verif.Show.footer_exact",
    "Verif.Show.length_exact",
    "Verif.Show.build_wide"
   ],
   "note": "Plain text; colours and HTML are not modelled."
  },
  {
   "property": "C317",
   "status": "partial",
   "theorems": [
    "Verif.Show.repeated_exact",
    "Verif.Show.repeated_partial",
    "Verif.Show.rounded_counterexample"
   ],
   "note": "Texts are compared: exact for texts; numbers that are shown alike are taken as equal (counterexample)."
  },
  {
   "property": "C318",
   "status": "partial",
   "theorems": [
    "Verif.Show.heads_partial",
    "Verif.Show.right_counterexample"
   ],
   "note": "If columns are shown on both sides; without columns on the right showing the table raises IndexError (counterexample, for all headers)."
  },
  {
   "property": "C319",
   "status": "partial",
   "theorems": [
    "Verif.Show.sets_exact",
    "Verif.Show.first_counterexample"
   ],
   "note": "In full for the columns; a first column wider than the console leaves an empty table, and a sorted view raises IndexError (counterexample)."
  },
  {
   "property": "C32",
   "status": "partial",
   "theorems": [
    "Verif.Calendar.date_fields_partial",
    "Verif.Calendar.date_array_partial",
    "Verif.Calendar.day_of_week_correct",
    "Verif.Calendar.date_year_after",
    "Verif.Calendar.date_year_before",
    "Verif.Calendar.fieldArray_spec",
    "Verif.Calendar.fieldArray_single",
    "Verif.Calendar.date_2100_counterexample",
    "Verif.Calendar.date_1968_counterexample",
    "Verif.Calendar.date_negative_length_counterexample"
   ],
   "note": "All days from 1970 to 2099 (single values and arrays); the table ends there, so later and earlier days have wrong fields (exact statements and counterexamples)."
  },
  {
   "property": "C320",
   "status": "partial",
   "theorems": [
    "Verif.Show.transposed_exact",
    "Verif.Show.header_partial",
    "Verif.Show.sort_counterexample",
    "Verif.Show.limit_counterexample",
    "Verif.Show.header_counterexample"
   ],
   "note": "Exactly what is shown; sort order and option are not heeded, numbers from 10 on can be displaced (counterexamples)."
  },
  {
   "property": "C321",
   "status": "partial",
   "theorems": [
    "Verif.Show.names_partial",
    "Verif.Show.footer_places",
    "Verif.Show.hash_counterexample",
    "Verif.Show.twice_counterexample"
   ],
   "note": "For labels, sort and summary columns that are different; a column named # is not shown, a label that is a sort column is shown twice (counterexamples). Footers in full."
  },
  {
   "property": "C322",
   "status": "partial",
   "theorems": [
    "Verif.ApplyOut.tuple_exact",
    "Verif.ApplyOut.tuple_columns_raises",
    "Verif.ApplyOut.tuple_empty_group_counterexample",
    "Verif.ApplyOut.tuple_columns_counterexample"
   ],
   "note": "Exactly when a matrix results for one column (every group must have rows), and then it is the right one; with two or more columns the call always raises."
  },
  {
   "property": "C323",
   "status": "proved",
   "theorems": [
    "Verif.ApplyOut.outputs_correct"
   ],
   "note": "For all keys, arrays and functions that write all their outputs."
  },
  {
   "property": "C324",
   "status": "partial",
   "theorems": [
    "Verif.ApplyOut.outputs_rows_partial",
    "Verif.ApplyOut.outputs_filtered_counterexample"
   ],
   "note": "In full for rows of groups; the entries of filtered rows are never written (proved, and counterexample)."
  },
  {
   "property": "C325",
   "status": "partial",
   "theorems": [
    "Verif.ApplyOut.outputs_last_column",
    "Verif.ApplyOut.outputs_columns_counterexample",
    "Verif.ApplyOut.outputs_single_raises",
    "Verif.ApplyOut.outputs_empty_group_counterexample"
   ],
   "note": "Violated: one array raises, on a dataset only the last column is left, entries not written are uninitialised memory. What happens instead is proved for all inputs."
  },
  {
   "property": "C326",
   "status": "proved",
   "theorems": [
    "Verif.SdsLoad.load_ext_exact",
    "Verif.SdsLoad.load_nothing"
   ],
   "note": "For all paths, disks and readers."
  },
  {
   "property": "C327",
   "status": "partial",
   "theorems": [
    "Verif.SdsLoad.load_plain_exact",
    "Verif.SdsLoad.load_saved_partial",
    "Verif.SdsLoad.load_saved_counterexample"
   ],
   "note": "Exactly what is loaded without the extension; what was saved is loaded when nothing else has the very name. A folder of the same name is loaded instead, and when it is damaged the file is loaded without a word."
  },
  {
   "property": "C328",
   "status": "partial",
   "theorems": [
    "Verif.SdsLoad.list_partial",
    "Verif.SdsLoad.list_counterexample"
   ],
   "note": "In full without folders asked for, or without directories, when no file was appended to. Missing paths shift the results, directories ignore the folders, one appended file hides the directories."
  },
  {
   "property": "C329",
   "status": "proved",
   "theorems": [
    "Verif.SdsLoad.mustexist_refused"
   ],
   "note": "For all lists and disks."
  },
  {
   "property": "C33",
   "status": "partial",
   "theorems": [
    "Verif.Tz.local_round_trip_partial",
    "Verif.Tz.local_round_trip_start",
    "Verif.Tz.utc_round_trip_exact",
    "Verif.Tz.fixDst_exact",
    "Verif.Tz.toUtc_exact",
    "Verif.Tz.convert_correct_partial",
    "Verif.Tz.tzOffset_correct",
    "Verif.Tz.isDst_correct_partial",
    "Verif.Tz.local_round_trip_nyc_counterexample",
    "Verif.Tz.local_round_trip_dublin_counterexample",
    "Verif.Tz.utc_round_trip_counterexample",
    "Verif.Tz.isDst_gmt_counterexample"
   ],
   "note": "All zones and all instants. Local round trip fails exactly at the first instant of daylight saving time; UTC round trip fails in the hour after its end, including the unambiguous instant that ends this hour (counterexamples). is_dst displayed in GMT answers for from_tz."
  },
  {
   "property": "C330",
   "status": "proved",
   "theorems": [
    "Verif.SdsLoad.stack_files",
    "Verif.SdsLoad.stack_folders",
    "Verif.SdsLoad.stack_folders_nothing",
    "Verif.SdsLoad.stack_mixed",
    "Verif.SdsLoad.stack_dirs_needs_names"
   ],
   "note": "For all lists, disks and options."
  },
  {
   "property": "C331",
   "status": "partial",
   "theorems": [
    "Verif.SdsLoad.stack_dirs_partial",
    "Verif.SdsLoad.stack_dirs_counterexample"
   ],
   "note": "The files and their order in full for names that differ without their extension; columns, filter and mustexist are dropped, and equal names have their files twice."
  },
  {
   "property": "C332",
   "status": "partial",
   "theorems": [
    "Verif.GbKeys.keys_history_partial",
    "Verif.GbKeys.keys_history_counterexample"
   ],
   "note": "For all histories that do not sort after the bin was put in, do not undo a sort and do not copy a sorted or binned chain; the first two and showfilter alone give wrong keys (counterexample)."
  },
  {
   "property": "C333",
   "status": "partial",
   "theorems": [
    "Verif.GbKeys.values_partial",
    "Verif.GbKeys.values_counterexample",
    "Verif.GbKeys.sortRows_first_raises"
   ],
   "note": "For the same histories; after keys(sort=False) on sorted keys the values are not sorted while the keys are."
  },
  {
   "property": "C334",
   "status": "partial",
   "theorems": [
    "Verif.GbKeys.copy_partial",
    "Verif.GbKeys.copy_binned_raises",
    "Verif.GbKeys.copy_counterexample"
   ],
   "note": "In full before keys were sorted or the bin put in; binned chains cannot be copied, and other copies lose the sort or the first key."
  },
  {
   "property": "C335",
   "status": "proved",
   "theorems": [
    "Verif.GbKeys.lookup_exact"
   ],
   "note": "For all lists of different keys."
  },
  {
   "property": "C336",
   "status": "partial",
   "theorems": [
    "Verif.GbKeys.bins_partial",
    "Verif.GbKeys.bins_counterexample"
   ],
   "note": "In full for two or more places; one place gives the bin itself, none raises."
  },
  {
   "property": "C337",
   "status": "partial",
   "theorems": [
    "Verif.Schema.report_partial",
    "Verif.Schema.report_counterexample"
   ],
   "note": "In full for schemas in which every element has something said of it and no array has contents; an empty description is reported as extra, an array with contents raises, and the documented type FastArray never matches."
  },
  {
   "property": "C338",
   "status": "partial",
   "theorems": [
    "Verif.Schema.reported_partial",
    "Verif.Schema.reported_exact",
    "Verif.Schema.reported_counterexample"
   ],
   "note": "Types in full; of the extra names of one object only the last is reported, and of the missing ones only the last (exact)."
  },
  {
   "property": "C339",
   "status": "partial",
   "theorems": [
    "Verif.Schema.described_partial",
    "Verif.Schema.described_counterexample"
   ],
   "note": "In full for objects that stand in one place; an array under two names has the description of the last."
  },
  {
   "property": "C34",
   "status": "partial",
   "theorems": [
    "Verif.Struct.ncols_correct_partial",
    "Verif.Struct.locked_unchanged_partial",
    "Verif.Struct.labels_keep_columns",
    "Verif.Struct.ncols_property_counterexample",
    "Verif.Struct.ncols_keyword_counterexample",
    "Verif.Struct.ncols_set_value_counterexample",
    "Verif.Struct.ncols_str_replace_counterexample",
    "Verif.Struct.locked_counterexample"
   ],
   "note": "Invariant over all histories of legal operations; the code breaks it for property/keyword names, col_set_value and merging replacements; several operations ignore the lock (counterexamples)."
  },
  {
   "property": "C340",
   "status": "proved",
   "theorems": [
    "Verif.Sizes.ends",
    "Verif.Sizes.ends_counterexample"
   ],
   "note": "After at most one Struct more than there are. It raises exactly when an array over memory that is no array is in the tree."
  },
  {
   "property": "C341",
   "status": "proved",
   "theorems": [
    "Verif.Sizes.logical_ge"
   ],
   "note": "For all graphs and sizes."
  },
  {
   "property": "C342",
   "status": "partial",
   "theorems": [
    "Verif.Sizes.physical_partial",
    "Verif.Sizes.physical_counterexample"
   ],
   "note": "In full when items over the same memory have the same bytes and the Struct is not inside itself; Categoricals that share codes or categories are counted by order or twice."
  },
  {
   "property": "C343",
   "status": "partial",
   "theorems": [
    "Verif.Sizes.logical_exact",
    "Verif.Sizes.logical_counterexample"
   ],
   "note": "What is counted is exact for all graphs: the items of each Struct once. Aliases of arrays are counted each time, aliases of Structs are not."
  },
  {
   "property": "C344",
   "status": "partial",
   "theorems": [
    "Verif.DsNew.create_partial",
    "Verif.DsNew.create_exact",
    "Verif.DsNew.create_counterexample"
   ],
   "note": "In full for admitted names, with what is taken exact; names of methods are capitalised, and a column is lost when the capitalised name is there too."
  },
  {
   "property": "C345",
   "status": "proved",
   "theorems": [
    "Verif.DsNew.create_rect"
   ],
   "note": "For all dictionaries and names."
  },
  {
   "property": "C346",
   "status": "partial",
   "theorems": [
    "Verif.DsNew.same_partial",
    "Verif.DsNew.same_counterexample"
   ],
   "note": "In full for dictionaries that are taken; single values, lists of one value and tuples are taken in an assignment but not in a dictionary."
  },
  {
   "property": "C347",
   "status": "proved",
   "theorems": [
    "Verif.Matlab.keep_exact",
    "Verif.Matlab.keep_twice"
   ],
   "note": "For all Structs and texts, under the conditions named in the statement."
  },
  {
   "property": "C348",
   "status": "proved",
   "theorems": [
    "Verif.Matlab.drop_exact"
   ],
   "note": "For all Structs and texts, under the conditions named in the statement."
  },
  {
   "property": "C349",
   "status": "partial",
   "theorems": [
    "Verif.Matlab.keep_exact",
    "Verif.Matlab.drop_exact",
    "Verif.Matlab.method_counterexample",
    "Verif.Matlab.overlap_counterexample",
    "Verif.Matlab.taken_counterexample",
    "Verif.Matlab.empty_prefix_counterexample"
   ],
   "note": "In full when names do not meet; texts called like a method without the prefix raise, overlapping names lose indices, an empty prefix moves columns."
  },
  {
   "property": "C35",
   "status": "partial",
   "theorems": [
    "Verif.Quantile.quantile_exact",
    "Verif.Quantile.quantile_correct_partial",
    "Verif.Quantile.describe_correct",
    "Verif.Quantile.quantile_signed_counterexample",
    "Verif.Quantile.quantile_single_counterexample"
   ],
   "note": "Exact behaviour proved for all columns and fractions (arithmetic on rationals): a signed column with invalid entries loses its largest valid entry (counterexample); unsigned columns, columns without invalid entries and describe() are right."
  },
  {
   "property": "C350",
   "status": "proved",
   "theorems": [
    "Verif.Matlab.rstrip_exact",
    "Verif.Matlab.same_texts_counterexample"
   ],
   "note": "As an equivalence for all texts; texts that differ only there become one."
  },
  {
   "property": "C351",
   "status": "proved",
   "theorems": [
    "Verif.AccBad.onepass_good",
    "Verif.AccBad.onepass_exact"
   ],
   "note": "For all axes, data and bad slots that are there; functions computable from parts (sum_isTotal in Verif.Accum)."
  },
  {
   "property": "C352",
   "status": "partial",
   "theorems": [
    "Verif.AccBad.onepass_bad",
    "Verif.AccBad.onepass_exact",
    "Verif.AccBad.multipass_partial",
    "Verif.AccBad.bad_row_counterexample"
   ],
   "note": "True for totals computed from the data; totals computed from the cells include the bad columns in bad rows, exactly."
  },
  {
   "property": "C353",
   "status": "partial",
   "theorems": [
    "Verif.AccBad.multipass_partial",
    "Verif.AccBad.base0_counterexample"
   ],
   "note": "For axes of base index 1 in the order of their codes without filtered rows shown, exactly; numbers are off by one for base index 0. Display order: see C66."
  },
  {
   "property": "C354",
   "status": "partial",
   "theorems": [
    "Verif.AccBad.names_nums",
    "Verif.AccBad.missing_raises",
    "Verif.AccBad.missing_counterexample"
   ],
   "note": "In full for totals computed from the cells; labels that are not there are passed over when totals are computed from the data."
  },
  {
   "property": "C355",
   "status": "partial",
   "theorems": [
    "Verif.AccBad.argument_partial",
    "Verif.AccBad.argument_exact",
    "Verif.AccBad.argument_counterexample"
   ],
   "note": "In full for lists and without filtered rows; an array with filtered rows shown moves by two for each data column, exactly."
  },
  {
   "property": "C356",
   "status": "partial",
   "theorems": [
    "Verif.H5.load_partial",
    "Verif.H5.load_exact",
    "Verif.H5.load_all",
    "Verif.H5.load_counterexample",
    "Verif.H5.escape_counterexample"
   ],
   "note": "Holds exactly if the names made by the rule of C357 are different; the code does not look at the names it has made."
  },
  {
   "property": "C357",
   "status": "proved",
   "theorems": [
    "Verif.H5.escape_spec",
    "Verif.H5.bump_ends",
    "Verif.H5.bump_more"
   ],
   "note": "For all words and all names in the file."
  },
  {
   "property": "C358",
   "status": "partial",
   "theorems": [
    "Verif.H5.fix_partial",
    "Verif.H5.fix_raises",
    "Verif.H5.fix_counterexample"
   ],
   "note": "In full if no name stands twice in the blocks; columns of repeated names and names without column are lost."
  },
  {
   "property": "C359",
   "status": "proved",
   "theorems": [
    "Verif.H5.drop_short"
   ],
   "note": "For all columns."
  },
  {
   "property": "C36",
   "status": "proved",
   "theorems": [
    "Verif.Hstack.hstack_dataset_correct",
    "Verif.Hstack.hstack_dataset_row",
    "Verif.Hstack.hstack_single"
   ],
   "note": "All lists of Datasets with 1-D and 2-D columns: success exactly for equal shapes, names, row counts and rows. Stacking of arrays of different dtype (C++) is assumed to keep values and invalids; the TypeError for custom classes and destroy=True are not modelled."
  },
  {
   "property": "C360",
   "status": "proved",
   "theorems": [
    "Verif.RecArr.records_keep",
    "Verif.RecArr.records_raise"
   ],
   "note": "For all columns of one length; the result of numpy's fromarrays as documented."
  },
  {
   "property": "C361",
   "status": "partial",
   "theorems": [
    "Verif.RecArr.moments_partial",
    "Verif.RecArr.nat_exact",
    "Verif.RecArr.nat_never",
    "Verif.RecArr.moments_counterexample"
   ],
   "note": "Valid ones keep their moment; NaT stands only for the smallest 64 bit number, exactly, so 0 becomes 1970 and invalid DateSpans a number of days."
  },
  {
   "property": "C362",
   "status": "proved",
   "theorems": [
    "Verif.RecArr.spans",
    "Verif.RecArr.truncated_unique"
   ],
   "note": "Spans as rational numbers of nanoseconds."
  },
  {
   "property": "C363",
   "status": "partial",
   "theorems": [
    "Verif.RecArr.bitcount_partial",
    "Verif.RecArr.bitcount_bool",
    "Verif.RecArr.bin_exact",
    "Verif.RecArr.bits_neg",
    "Verif.RecArr.bitcount_counterexample"
   ],
   "note": "In full for numbers that are not negative and Python bools; negative numbers count the bits of the number without its sign, exactly; numpy bools raise."
  },
  {
   "property": "C364",
   "status": "proved",
   "theorems": [
    "Verif.ColPop.pop_one",
    "Verif.ColPop.pop_many",
    "Verif.ColPop.pop_all",
    "Verif.ColPop.pop_index"
   ],
   "note": "For names that are not attributes of the class."
  },
  {
   "property": "C365",
   "status": "proved",
   "theorems": [
    "Verif.ColPop.pop_raises_unchanged",
    "Verif.ColPop.pop_raises"
   ],
   "note": "For every argument."
  },
  {
   "property": "C366",
   "status": "partial",
   "theorems": [
    "Verif.ColPop.pop_is_getitem_partial",
    "Verif.ColPop.pop_array_exact",
    "Verif.ColPop.pop_is_getitem_counterexample"
   ],
   "note": "In full for names, places and lists of names; lists of places and masks always raise TypeError, exactly."
  },
  {
   "property": "C367",
   "status": "partial",
   "theorems": [
    "Verif.SpanRed.span_filter_partial",
    "Verif.SpanRed.span_filter_exact",
    "Verif.SpanRed.array_filter",
    "Verif.SpanRed.span_filter_counterexample"
   ],
   "note": "Only for filters that keep every row: the keyword arguments are accepted and not used, exactly."
  },
  {
   "property": "C368",
   "status": "partial",
   "theorems": [
    "Verif.SpanRed.span_unit_partial",
    "Verif.SpanRed.span_var_exact",
    "Verif.SpanRed.span_unit_counterexample"
   ],
   "note": "In full for sum, mean, min, max, median with and without nan; var carries the square of the unit, exactly."
  },
  {
   "property": "C369",
   "status": "proved",
   "theorems": [
    "Verif.FillInv.fill_invalid_correct",
    "Verif.FillInv.fill_invalid_total",
    "Verif.FillInv.fill_invalid_type",
    "Verif.FillInv.fill_bool_counterexample"
   ],
   "note": "For every class and type other than bool; bools become False."
  },
  {
   "property": "C37",
   "status": "proved",
   "theorems": [
    "Verif.Merge.join_schedule_independent"
   ],
   "note": ""
  },
  {
   "property": "C370",
   "status": "proved",
   "theorems": [
    "Verif.FillInv.fill_invalid_raises_unchanged",
    "Verif.FillInv.fill_invalid_shape"
   ],
   "note": "For every class."
  },
  {
   "property": "C371",
   "status": "partial",
   "theorems": [
    "Verif.FillInv.fill_invalid_dtype_partial",
    "Verif.FillInv.fill_invalid_dtype_exact",
    "Verif.FillInv.fill_invalid_dtype_counterexample"
   ],
   "note": "For plain arrays and Categoricals; dates, times and spans ignore the type, exactly."
  },
  {
   "property": "C372",
   "status": "proved",
   "theorems": [
    "Verif.Pickle.content_kept"
   ],
   "note": "For a lossless compressor, for arrays as the constructors and set_timezone leave them; unicode without rows is excluded in the statement and treated in C373."
  },
  {
   "property": "C373",
   "status": "partial",
   "theorems": [
    "Verif.Pickle.everything_partial",
    "Verif.Pickle.rest_exact",
    "Verif.Pickle.name_counterexample",
    "Verif.Pickle.empty_counterexample",
    "Verif.Pickle.plain_counterexample",
    "Verif.Pickle.origin_counterexample",
    "Verif.Pickle.attributes_counterexample"
   ],
   "note": "Names are always lost, the zone of origin becomes GMT, Date and DateSpan get four attributes, and unicode becomes bytes without rows or compression (counterexamples); nothing else is lost."
  },
  {
   "property": "C374",
   "status": "proved",
   "theorems": [
    "Verif.Stats.lm_least",
    "Verif.Stats.lm_plain_least"
   ],
   "note": "For removeNaN=True and one column Y; np.linalg.solve by its contract, exact arithmetic."
  },
  {
   "property": "C375",
   "status": "proved",
   "theorems": [
    "Verif.Stats.r2_range",
    "Verif.Stats.r2_symm",
    "Verif.Stats.r2_affine"
   ],
   "note": "Over rational numbers, any length."
  },
  {
   "property": "C376",
   "status": "proved",
   "theorems": [
    "Verif.Stats.winsorize_correct"
   ],
   "note": "Over rational numbers with NaN."
  },
  {
   "property": "C377",
   "status": "proved",
   "theorems": [
    "Verif.Stats.mae_correct"
   ],
   "note": "Over rational numbers with NaN."
  },
  {
   "property": "C378",
   "status": "partial",
   "theorems": [
    "Verif.Stats.class_error_partial",
    "Verif.Stats.class_error_exact",
    "Verif.Stats.class_error_counterexample"
   ],
   "note": "For labels that differ by at most one; otherwise the distance of the labels is counted, exactly (counterexample: 200%)."
  },
  {
   "property": "C379",
   "status": "partial",
   "theorems": [
    "Verif.Stats.printed_r2_partial",
    "Verif.Stats.printed_r2_counterexample"
   ],
   "note": "Only if the means are 0: the means are not subtracted (counterexample: 49 for a perfect fit)."
  },
  {
   "property": "C38",
   "status": "proved",
   "theorems": [
    "Verif.Asof.asof_grouped_schedule_independent"
   ],
   "note": "No assumption on the key columns; error behaviour included."
  },
  {
   "property": "C380",
   "status": "proved",
   "theorems": [
    "Verif.Stats.statx_values"
   ],
   "note": "Percentiles and standard deviation are not modelled."
  },
  {
   "property": "C381",
   "status": "partial",
   "theorems": [
    "Verif.Stats.statx_counts",
    "Verif.Stats.statx_used_partial",
    "Verif.Stats.statx_counterexample"
   ],
   "note": "The counts are proved; the difference only without infinities (counterexample)."
  },
  {
   "property": "C382",
   "status": "proved",
   "theorems": [
    "Verif.MatDate.date_correct",
    "Verif.MatDate.date_fields"
   ],
   "note": ""
  },
  {
   "property": "C383",
   "status": "proved",
   "theorems": [
    "Verif.MatDate.nano_correct",
    "Verif.MatDate.nano_shown"
   ],
   "note": "For wall clocks other than midnight of 1 January 1970; exact arithmetic."
  },
  {
   "property": "C384",
   "status": "partial",
   "theorems": [
    "Verif.MatDate.valid_partial",
    "Verif.MatDate.invalid_exact",
    "Verif.MatDate.epoch_counterexample"
   ],
   "note": "Every day but 1 January 1970; the numbers that become invalid are characterised exactly."
  },
  {
   "property": "C385",
   "status": "proved",
   "theorems": [
    "Verif.Outlier.outliers_correct",
    "Verif.Outlier.no_numbers",
    "Verif.Outlier.missing_raises"
   ],
   "note": "nanargmin and nanargmax are parameters that find an extreme value if there is a number (firstBest_finds shows one that does)."
  },
  {
   "property": "C386",
   "status": "partial",
   "theorems": [
    "Verif.Outlier.outliers_correct",
    "Verif.Outlier.one_lost",
    "Verif.Outlier.names_counterexample"
   ],
   "note": "For names other than Values, Pos and Names; with these one of the four columns is lost."
  },
  {
   "property": "C387",
   "status": "proved",
   "theorems": [
    "Verif.GrpFill.fillForward_correct",
    "Verif.GrpFill.fillBackward_correct"
   ],
   "note": "That numba functions can be called through the instance is assumed."
  },
  {
   "property": "C388",
   "status": "proved",
   "theorems": [
    "Verif.GrpFill.fillBoth_correct"
   ],
   "note": "As C387."
  },
  {
   "property": "C389",
   "status": "partial",
   "theorems": [
    "Verif.GrpFill.determined_partial",
    "Verif.GrpFill.outside_exact",
    "Verif.GrpFill.outside_counterexample"
   ],
   "note": "If every row is in a group; a row in no group keeps what was in memory, exactly."
  },
  {
   "property": "C39",
   "status": "partial",
   "theorems": [
    "Verif.Struct.ncols_correct_partial",
    "Verif.Struct.sortlist_str_replace_counterexample"
   ],
   "note": "Third conjunct; over legal histories; col_str_replace on a sorted struct raises half-way and leaves a sort column that is not there (counterexample)."
  },
  {
   "property": "C40",
   "status": "proved",
   "theorems": [
    "Verif.Struct.set_attr_correct",
    "Verif.Struct.del_attr_correct",
    "Verif.Struct.col_remove_correct",
    "Verif.Struct.col_remove_raises"
   ],
   "note": ""
  },
  {
   "property": "C41",
   "status": "partial",
   "theorems": [
    "Verif.GbNumba.grouped_fill_correct",
    "Verif.GbNumba.grouped_fill_rejects",
    "Verif.GbNumba.grouped_fill_skipped_rows",
    "Verif.GbNumba.grouped_fill_filtered_counterexample"
   ],
   "note": "All groups, directions, limits, in place or not, all schedules. Last sentence fails: filtered rows of the result are uninitialised memory (counterexample)."
  },
  {
   "property": "C42",
   "status": "proved",
   "theorems": [
    "Verif.GbNumba.grouped_ema_correct",
    "Verif.GbNumba.ema_empty_group_counterexample"
   ],
   "note": "Over any commutative ring with an exponential; rounding not modelled."
  },
  {
   "property": "C43",
   "status": "partial",
   "theorems": [
    "Verif.Merge2.merge2_correct",
    "Verif.Merge2.merge2_indicator_collision",
    "Verif.Merge2.merge2_missing_column",
    "Verif.Merge2.crossed_keys_counterexample",
    "Verif.Merge2.key_count_mismatch_counterexample"
   ],
   "note": "Proved for all joins over any number of key columns without keep/validate, when a key name used on both sides is paired with itself and both sides give equally many keys; both conditions are needed (counterexamples)."
  },
  {
   "property": "C44",
   "status": "partial",
   "theorems": [
    "Verif.Merge2.validate_correct",
    "Verif.Merge2.validate_null_counterexample"
   ],
   "note": "Stated on the keys the join uses. With how='left' (right) null keys of the left (right) side are not masked and count as repeated keys (counterexample)."
  },
  {
   "property": "C45",
   "status": "proved",
   "theorems": [
    "Verif.Merge2.merge_lookup_keep",
    "Verif.Merge2.merge_lookup_unique",
    "Verif.Merge2.merge_lookup_repeated",
    "Verif.Merge2.merge_lookup_require_match"
   ],
   "note": "Any number of key columns."
  },
  {
   "property": "C46",
   "status": "partial",
   "theorems": [
    "Verif.Str.cat_values_correct",
    "Verif.Str.cat_strings_correct",
    "Verif.Str.cat_substr_from_counterexample"
   ],
   "note": "All functions given label by label; substr[a:] on a Categorical looks row lengths up by label (counterexample)."
  },
  {
   "property": "C47",
   "status": "partial",
   "theorems": [
    "Verif.SortCache.sort_view_sorted",
    "Verif.SortCache.sort_inplace_sorted",
    "Verif.SortCache.sort_copy_sorted",
    "Verif.SortCache.sort_view_ok_iff",
    "Verif.SortCache.copy_keeps_sort_partial",
    "Verif.SortCache.copy_after_sort_view_counterexample",
    "Verif.SortCache.subset_directions_counterexample"
   ],
   "note": "Sorting proved for a lexsort meeting its contract. Copies: one direction for all keys raises AttributeError, subsets mispair directions (counterexamples)."
  },
  {
   "property": "C48",
   "status": "partial",
   "theorems": [
    "Verif.Hstack.hstack_dict_codes_partial",
    "Verif.Hstack.hstack_dict_overflow_counterexample"
   ],
   "note": "Holds if the number of items fits the integer type chosen from the number of rows; counterexample with 127 empty items."
  },
  {
   "property": "C49",
   "status": "partial",
   "theorems": [
    "Verif.Tz.nano_fields_partial",
    "Verif.Tz.nano_array_partial",
    "Verif.Tz.nano_week",
    "Verif.Tz.minute_partial",
    "Verif.Tz.second_correct",
    "Verif.Tz.day_of_month_utc",
    "Verif.Tz.day_of_month_partial",
    "Verif.Tz.date_partial",
    "Verif.Tz.minute_kolkata_counterexample",
    "Verif.Tz.day_of_month_counterexample",
    "Verif.Tz.date_tokyo_counterexample"
   ],
   "note": "All zones, displayed times 1970 to 2099. day_of_month uses the UTC day, minute ignores half-hour zones, date() does not shift in Tokyo and Kolkata (counterexamples)."
  },
  {
   "property": "C50",
   "status": "partial",
   "theorems": [
    "Verif.Tz.nyc_rule",
    "Verif.Tz.dublin_rule",
    "Verif.Tz.sydney_rule",
    "Verif.Tz.sundayFrom_spec",
    "Verif.Tz.lastSunday_spec",
    "Verif.Tz.nyc_2041_counterexample",
    "Verif.Tz.sydney_2041_counterexample"
   ],
   "note": "New York 1970-2040, Dublin 1981-2040, Sydney 2008-2040, all instants; nothing after 2040 (counterexamples). Earlier rules of Dublin and Sydney are not specified."
  },
  {
   "property": "C51",
   "status": "partial",
   "theorems": [
    "Verif.Grp.listing_exact",
    "Verif.Grp.listing_partial",
    "Verif.Grp.getGroupings_correct",
    "Verif.Grp.count_correct",
    "Verif.Grp.first_last_partial",
    "Verif.Grp.asFilter_exact",
    "Verif.Grp.listing_counterexample",
    "Verif.Grp.first_fancy_counterexample"
   ],
   "note": "Exact behaviour for all histories: get_groupings, packed computations and count are right; the cached listings stay those of the last filtered computation (counterexample). first_fancy/last_fancy of groups without rows point to rows of other groups (counterexample)."
  },
  {
   "property": "C52",
   "status": "partial",
   "theorems": [
    "Verif.Grp.applyReduce_exact",
    "Verif.Grp.applyReduce_partial",
    "Verif.Grp.nonreduceCol_correct",
    "Verif.Grp.applyNonreduce_columns",
    "Verif.Grp.applyReduce_dtype_counterexample",
    "Verif.Grp.applyReduce_filtered_counterexample"
   ],
   "note": "Exact behaviour proved: all results are cast to the type of the first result of the first column (counterexample), and the function is also called on the filtered rows (counterexample). Casts and types are parameters."
  },
  {
   "property": "C53",
   "status": "partial",
   "theorems": [
    "Verif.Grp.apply_one_row_correct",
    "Verif.Grp.apply_one_row_gaps",
    "Verif.Grp.apply_same_rows_partial",
    "Verif.Grp.apply_sorted_gaps_raises",
    "Verif.Grp.apply_sorted_gaps_counterexample",
    "Verif.Grp.apply_mislabels_counterexample",
    "Verif.Grp.apply_single_rows_counterexample"
   ],
   "note": "One row per group: right without empty groups or without sorted display; with both it raises. Other results: right if some group has two rows; coincidences of counts mislabel rows (counterexamples)."
  },
  {
   "property": "C54",
   "status": "partial",
   "theorems": [
    "Verif.Grp.result_labels_correct",
    "Verif.Grp.result_labels_filtered_correct",
    "Verif.Grp.showfilter_reduce_raises",
    "Verif.Grp.showfilter_reduce_counterexample"
   ],
   "note": "All histories and orders for results finished without explicit keys; apply_reduce with showfilter=True passes the wrong keys and raises, or mislabels when there is one group (counterexample)."
  },
  {
   "property": "C55",
   "status": "partial",
   "theorems": [
    "Verif.Grp.transform_exact",
    "Verif.Grp.transform_sorted_exact",
    "Verif.Grp.transform_partial",
    "Verif.Grp.transform_other_base_exact",
    "Verif.Grp.transform_showfilter",
    "Verif.Grp.transform_counterexample"
   ],
   "note": "Base index 1 and rows of groups. Filtered rows get the last group's value; base index 0 and enums are off by one group; results sorted for display but not ordered are mixed up (counterexamples)."
  },
  {
   "property": "C56",
   "status": "partial",
   "theorems": [
    "Verif.Grp.shrink_correct",
    "Verif.Grp.shrinkMisc_partial",
    "Verif.Grp.shrinkMisc_counterexample",
    "Verif.Grp.shrinkMisc_none_counterexample"
   ],
   "note": "Without misc for all base-1 Categoricals; with misc only if the last new category is among the old ones (counterexamples). The enum branch raises and is not modelled."
  },
  {
   "property": "C57",
   "status": "proved",
   "theorems": [
    "Verif.Grp.regroup_rows",
    "Verif.Grp.regroup_labels",
    "Verif.Grp.refSort_ok"
   ],
   "note": "All base-1 groupings with at least one row and all filters, for a lexsort meeting its contract. Enums are not modelled."
  },
  {
   "property": "C58",
   "status": "proved",
   "theorems": [
    "Verif.Grp.takeGroups_correct",
    "Verif.Grp.extractGroups_correct",
    "Verif.Grp.takeGroups_out_of_range"
   ],
   "note": "All packed data."
  },
  {
   "property": "C59",
   "status": "partial",
   "theorems": [
    "Verif.Grp.countUniques_exact",
    "Verif.Grp.countUniques_base0_counterexample"
   ],
   "note": "In terms of codes; right for base index 1, off by one group for base index 0 (counterexample). Without transform and showfilter."
  },
  {
   "property": "C60",
   "status": "proved",
   "theorems": [
    "Verif.AsofDs.mergeAsof2_backward_correct",
    "Verif.AsofDs.mergeAsof2_forward_correct",
    "Verif.AsofDs.mergeAsof2_nearest_correct",
    "Verif.AsofDs.mergeAsof2_contents",
    "Verif.AsofDs.request_spec",
    "Verif.AsofDs.mergeAsof2_refuses"
   ],
   "note": "All Datasets of one value type whose on keys are valid and ascending inside every by key; without that hypothesis mergeAsof2_contents still fixes rows, names and left columns. Grouping construction and dtype checks by contract. Sortedness checks themselves: C09."
  },
  {
   "property": "C61",
   "status": "partial",
   "theorems": [
    "Verif.AsofDs.normTol_partial",
    "Verif.AsofDs.normTol_accepts",
    "Verif.AsofDs.normTol_negative",
    "Verif.AsofDs.normTol_units",
    "Verif.AsofDs.normTol_wrap_counterexample"
   ],
   "note": "Holds for tolerances within the range of the key type; larger ones wrap around with numpy before 2.0 (counterexample). Floats are rationals; keys of two different dtypes are represented by their common type."
  },
  {
   "property": "C62",
   "status": "partial",
   "theorems": [
    "Verif.Bin.binQuantile_correct",
    "Verif.Bin.binQuantile_lower_higher_exact",
    "Verif.Bin.binQuantile_lower_counterexample"
   ],
   "note": "Default interpolation proved in full. 'lower' and 'higher' raise IndexError at fractional positions (np.floor/np.ceil floats used as index), shown by the exact characterisation and a witness."
  },
  {
   "property": "C63",
   "status": "partial",
   "theorems": [
    "Verif.Bin.cut_correct",
    "Verif.Bin.cut_count_correct",
    "Verif.Bin.cut_refuses",
    "Verif.Bin.inBin_unique",
    "Verif.Bin.cut_duplicates_counterexample",
    "Verif.Bin.cut_right_false_counterexample"
   ],
   "note": "C++ BinsToCutsBSearch by its documented behaviour; two equal edges are accepted in spite of duplicates='raise'; right=False misplaces edge values (documented as known)."
  },
  {
   "property": "C64",
   "status": "proved",
   "theorems": [
    "Verif.Bin.qcut_correct",
    "Verif.Bin.qcut_count_correct",
    "Verif.Bin.qcut_drop_ok",
    "Verif.Bin.quantile_ascending"
   ],
   "note": "C++ BinsToCutsSorted as the documented examples show for numbers; its codes for NaN and infinities are a parameter. Needs at least two edges left."
  },
  {
   "property": "C65",
   "status": "partial",
   "theorems": [
    "Verif.Accum.accum2_cells",
    "Verif.Accum.getItem_partial",
    "Verif.Accum.accum2_filtered_column_counterexample",
    "Verif.Accum.accum2_name_counterexample",
    "Verif.Accum.getItem_sorted_counterexample"
   ],
   "note": "All cells, all display orders. With showfilter the column of filtered rows is not reordered, ac[i] reads display-ordered labels with plain codes, and a column label equal to another column's name is overwritten (counterexamples)."
  },
  {
   "property": "C66",
   "status": "partial",
   "theorems": [
    "Verif.Accum.accum2_totals",
    "Verif.Accum.sum_isTotal",
    "Verif.Accum.accum2_multi_exact",
    "Verif.Accum.accum2_multi_partial",
    "Verif.Accum.accum2_multi_sorted_counterexample",
    "Verif.Accum.accum2_multi_filtered_counterexample",
    "Verif.Accum.accum2_multi_base0_counterexample",
    "Verif.Accum.accum2_min_counterexample"
   ],
   "note": "Full for functions computable from parts (sum, count, nanmin...). Mean, median, var...: totals are in code order, include half-filtered rows, and are shifted for base index 0 (counterexamples). min/max give NaN margins beside empty cells (counterexample). badrows/badcols not modelled."
  },
  {
   "property": "C67",
   "status": "partial",
   "theorems": [
    "Verif.Accum.loadAcc_exact",
    "Verif.Accum.loadAcc_partial",
    "Verif.Accum.loadAcc_counterexample"
   ],
   "note": "The loader passes the columns axis as rows: rows and columns are exchanged for every Accum2 whose axes differ."
  },
  {
   "property": "C68",
   "status": "partial",
   "theorems": [
    "Verif.Member.ismember_values",
    "Verif.Member.ismember_partial",
    "Verif.Member.findLossless_sound",
    "Verif.Member.findLossless_none",
    "Verif.Member.ismember_base1_partial",
    "Verif.Member.ismember_raises",
    "Verif.Member.refCasts_ok",
    "Verif.Member.ismember_truncates_counterexample",
    "Verif.Member.ismember_wraps_counterexample",
    "Verif.Member.ismember_base_counterexample"
   ],
   "note": "All values for all pairs of types with a lossless common type; for 64-bit integers with floats or the other sign only if all values survive: fractions are truncated (1.5 is found in [1]) and uint64 wraps (counterexamples). base_index=1 is ignored for empty arrays, lists of keys and several keys (counterexample). C++ hash lookup and conversions by contract."
  },
  {
   "property": "C69",
   "status": "partial",
   "theorems": [
    "Verif.Member.ismemberKeys_partial",
    "Verif.Member.colFits_lossless",
    "Verif.Member.assocCopy_correct",
    "Verif.Member.findLossless_sound",
    "Verif.Member.ismemberKeys_truncates_counterexample"
   ],
   "note": "Two or more columns of numbers whose values survive the conversion (always so for types with a lossless common type and valid values); the same truncation as C68 otherwise (counterexample)."
  },
  {
   "property": "C70",
   "status": "partial",
   "theorems": [
    "Verif.Member.catIsin_partial",
    "Verif.Member.catIsin_counterexample"
   ],
   "note": "Values that the type of the categories can hold; others are truncated, so Cat([1,2]).isin([1.5,7]) is True for label 1 (counterexample)."
  },
  {
   "property": "C71",
   "status": "partial",
   "theorems": [
    "Verif.Dup.duplicated_first",
    "Verif.Dup.duplicated_drop",
    "Verif.Dup.duplicated_last_exact",
    "Verif.Dup.duplicated_last_partial",
    "Verif.Dup.duplicated_keeps_packing",
    "Verif.Dup.dropDuplicates_first",
    "Verif.Dup.dropDuplicates_last",
    "Verif.Dup.dropDuplicates_drop_partial",
    "Verif.Dup.dropDuplicates_inplace",
    "Verif.Dup.earlier_contents",
    "Verif.Dup.refGroup_numbered",
    "Verif.Dup.duplicated_last_counterexample",
    "Verif.Dup.duplicated_unused_counterexample",
    "Verif.Dup.duplicated_corrupts_counterexample",
    "Verif.Dup.dropDuplicates_count_counterexample",
    "Verif.Dup.dropDuplicates_inplace_counterexample"
   ],
   "note": "keep='first' and False hold for all tables; duplicated(keep='last') marks the wrong rows (characterised exactly, counterexample) and changes the packing of a Categorical key; a Categorical with an unused last category raises; drop_duplicates(keep=False) is wrong when a chosen column is called Count. The C++ grouping enters by contract."
  },
  {
   "property": "C72",
   "status": "partial",
   "theorems": [
    "Verif.Idx.getitem_table",
    "Verif.Idx.getitem_answers",
    "Verif.Idx.getitem_column",
    "Verif.Idx.getitem_column_answers",
    "Verif.Idx.sliceRows_isSlice",
    "Verif.Idx.take_eq",
    "Verif.Idx.head_rows",
    "Verif.Idx.tail_partial",
    "Verif.Idx.filter_mask",
    "Verif.Idx.filter_ints",
    "Verif.Idx.filterInplace_agrees",
    "Verif.Idx.tail_zero_counterexample"
   ],
   "note": "All kinds of row and column argument, all tables; tail(0) returns the whole Dataset (counterexample). Empty lists are refused with IndexError."
  },
  {
   "property": "C73",
   "status": "partial",
   "theorems": [
    "Verif.Idx.setitem_frame",
    "Verif.Idx.setitem_scalar",
    "Verif.Idx.setitem_array",
    "Verif.Idx.setitem_row",
    "Verif.Idx.setitem_table",
    "Verif.Idx.setitem_getitem",
    "Verif.Idx.setitem_array_raises",
    "Verif.Idx.putmask_table",
    "Verif.Idx.setitem_error_counterexample",
    "Verif.Idx.setitem_names_counterexample"
   ],
   "note": "Frame and values for all arguments; an assignment that raises may have changed columns before (counterexample), a Dataset of another shape assigned to one row stores its column names (counterexample). Type conversions of numpy not modelled."
  },
  {
   "property": "C74",
   "status": "partial",
   "theorems": [
    "Verif.Shape.melt_long",
    "Verif.Shape.melt_raises",
    "Verif.Shape.melt_trim",
    "Verif.Shape.melt_name_counterexample"
   ],
   "note": "All tables and arguments, for names that do not clash; an id column with the name of the value or variable column is overwritten silently (counterexample)."
  },
  {
   "property": "C75",
   "status": "partial",
   "theorems": [
    "Verif.Shape.pivot_wide",
    "Verif.Shape.pivot_duplicates",
    "Verif.Shape.pivot_melt",
    "Verif.Shape.pivot_nolabels",
    "Verif.Shape.pivot_filtered_raises",
    "Verif.Shape.refGrp_grouped",
    "Verif.Shape.pivot_name_counterexample",
    "Verif.Shape.pivot_label_counterexample",
    "Verif.Shape.pivot_filter_counterexample"
   ],
   "note": "Groupings by their contract (reference grouping in Ref). Colliding joined names overwrite columns; labels=None raises AttributeError; with a filter excluding two rows Duplicates is raised when the C++ count includes bin 0 (parameter count0)."
  },
  {
   "property": "C76",
   "status": "proved",
   "theorems": [
    "Verif.Make.concat_columns",
    "Verif.Make.concat_columns_raise",
    "Verif.Make.concat_lengths"
   ],
   "note": "All lists of Datasets and options; copies are not told from originals, Structs are taken as converted."
  },
  {
   "property": "C77",
   "status": "partial",
   "theorems": [
    "Verif.Make.fromRows_rows",
    "Verif.Make.fromRows_raises",
    "Verif.Make.fromTagged_rows",
    "Verif.Make.fromTagged_raises_partial",
    "Verif.Make.fromRows_names_counterexample",
    "Verif.Make.fromRows_nonames_counterexample",
    "Verif.Make.fromTagged_counterexample",
    "Verif.Make.fromTagged_empty_counterexample"
   ],
   "note": "Repeated names lose a column; dictionaries with different keys are accepted when all keys occur equally often (counterexamples). What numpy does to items of mixed types is not modelled."
  },
  {
   "property": "C78",
   "status": "partial",
   "theorems": [
    "Verif.Make.fromJagged_rows",
    "Verif.Make.stacked_rows",
    "Verif.Make.jagged_lengths",
    "Verif.Make.jaggedDict_lengths",
    "Verif.Make.fromJagged_unicode",
    "Verif.Make.fromJagged_fill",
    "Verif.Make.fromJagged_empty",
    "Verif.Make.fromJagged_cut_counterexample",
    "Verif.Make.jaggedDict_name_counterexample",
    "Verif.Make.jaggedDict_clash_counterexample",
    "Verif.Make.stacked_empty_counterexample",
    "Verif.Make.stacked_empty_raises_counterexample"
   ],
   "note": "Byte strings with a fill value that is not bytes; unicode rows raise TypeError, byte fill values UnboundLocalError. Stacking for all dictionaries without empty lists; with one the result can be wrong (counterexample)."
  },
  {
   "property": "C79",
   "status": "partial",
   "theorems": [
    "Verif.Trim.trim_table",
    "Verif.Trim.keep_table",
    "Verif.Trim.trim_allbad_counterexample",
    "Verif.Trim.trim_rows_counterexample",
    "Verif.Trim.trim_inplace_counterexample"
   ],
   "note": "Exact characterisation for all tables and tests that return a new array and leave some column; otherwise IndexError, all rows kept, or the Dataset changed (counterexamples)."
  },
  {
   "property": "C80",
   "status": "partial",
   "theorems": [
    "Verif.Foot.history_exact",
    "Verif.Foot.history_no_hidden",
    "Verif.Foot.setValues_exact",
    "Verif.Foot.remove_exact",
    "Verif.Foot.addCol_exact",
    "Verif.Foot.delCol_exact",
    "Verif.Foot.getValues_exact",
    "Verif.Foot.getDict_exact",
    "Verif.Foot.run2_independent",
    "Verif.Foot.deepCopy_exact",
    "Verif.Foot.slice_reads",
    "Verif.Foot.slice_writes_through",
    "Verif.Foot.sortCopy_raises_iff",
    "Verif.Foot.slice_shares_counterexample",
    "Verif.Foot.slice_remove_counterexample",
    "Verif.Foot.remove_twice_counterexample",
    "Verif.Foot.remove_columns_keeps_label_counterexample",
    "Verif.Foot.sortCopy_footers_counterexample"
   ],
   "note": "Histories on one Dataset and on a Dataset and its deep copy are exact (a label named twice in one removal excepted: KeyError). Slices and shallow copies share footers with the original, and sort_copy raises for every Dataset with footers."
  },
  {
   "property": "C81",
   "status": "partial",
   "theorems": [
    "Verif.Equal.compare_cells",
    "Verif.Equal.equals_exact",
    "Verif.Equal.equals_partial",
    "Verif.Equal.equals_of_same",
    "Verif.Equal.equals_symm",
    "Verif.Equal.equals_refl",
    "Verif.Equal.equals_extra_nan",
    "Verif.Equal.equals_summary_never",
    "Verif.Equal.exact_tests",
    "Verif.Equal.exact_partial",
    "Verif.Equal.equals_columns_counterexample",
    "Verif.Equal.equals_labels_counterexample",
    "Verif.Equal.equals_summary_counterexample",
    "Verif.Equal.exact_names_counterexample",
    "Verif.Equal.exact_columns_counterexample",
    "Verif.Equal.exact_rows_counterexample",
    "Verif.Equal.exact_empty_counterexample"
   ],
   "note": "What equals tests is characterised for all Datasets without summary columns; the full claim fails for an extra column of NaNs, label columns, summary columns, and for exact=True on names and shapes."
  },
  {
   "property": "C82",
   "status": "partial",
   "theorems": [
    "Verif.DateOps.arith_partial",
    "Verif.DateOps.kinds_exact",
    "Verif.DateOps.number_partial",
    "Verif.DateOps.nan_exact",
    "Verif.DateOps.date_one_exact",
    "Verif.DateOps.dspan_one_exact",
    "Verif.DateOps.sub_add_round_trip",
    "Verif.DateOps.inplace_partial",
    "Verif.DateOps.dspan_tspan_counterexample",
    "Verif.DateOps.dspan_nano_counterexample",
    "Verif.DateOps.tspan_sub_dspan_counterexample",
    "Verif.DateOps.tspan_dspan_one_counterexample",
    "Verif.DateOps.one_entry_counterexample",
    "Verif.DateOps.inplace_one_counterexample",
    "Verif.DateOps.inplace_raises_counterexample",
    "Verif.DateOps.zone_counterexample",
    "Verif.DateOps.date_nano_marker_counterexample",
    "Verif.DateOps.int_array_partial",
    "Verif.DateOps.int_array_one_counterexample",
    "Verif.DateOps.inplace_number",
    "Verif.DateOps.inplace_raises_exact"
   ],
   "note": "Proved for all columns of all pairs of kinds outside the listed combinations, which the code gets wrong (counterexamples): columns of one entry with an invalid or non-positive entry, DateSpan with invalid entries and times, TimeSpan minus DateSpan, Date minus DateTimeNano of another zone. Floats are whole nanoseconds."
  },
  {
   "property": "C83",
   "status": "partial",
   "theorems": [
    "Verif.DateOps.tspan_compare",
    "Verif.DateOps.date_compare_exact",
    "Verif.DateOps.date_compare_partial",
    "Verif.DateOps.nano_compare_partial",
    "Verif.DateOps.dspan_compare_partial",
    "Verif.DateOps.dspan_compare_exact",
    "Verif.DateOps.date_nano_compare_partial",
    "Verif.DateOps.date_order_counterexample",
    "Verif.DateOps.dspan_compare_counterexample"
   ],
   "note": "TimeSpans, and == and != of Dates and DateTimeNanos, in full; the orders of Dates and DateTimeNanos fail for a valid entry against an invalid one, DateSpans for every invalid entry (exact statements and counterexamples)."
  },
  {
   "property": "C84",
   "status": "partial",
   "theorems": [
    "Verif.DateOps.range_closed",
    "Verif.DateOps.range_step",
    "Verif.DateOps.range_days",
    "Verif.DateOps.range_raises",
    "Verif.DateOps.range_both_exact",
    "Verif.DateOps.start_of_week_partial",
    "Verif.DateOps.start_of_month_partial",
    "Verif.DateOps.range_epoch_counterexample",
    "Verif.DateOps.start_of_month_1970_counterexample"
   ],
   "note": "Ranges in full (the end within 32 bits). First days for columns that have not one entry, months up to 2099; 1970-01-01 itself is the invalid date (counterexamples)."
  },
  {
   "property": "C85",
   "status": "partial",
   "theorems": [
    "Verif.Cols.apply_exact",
    "Verif.Cols.apply_plain",
    "Verif.Cols.apply_labels",
    "Verif.Cols.apply_fill",
    "Verif.Cols.fill_number_raises",
    "Verif.Cols.nothing_exact",
    "Verif.Cols.summary_name_counterexample",
    "Verif.Cols.fill_name_counterexample",
    "Verif.Cols.empty_counterexample"
   ],
   "note": "In full for columns and names, except that summary columns are renamed Summary0, ... and the call raises exactly when such a name is taken. A number as fill value raises unless there is one row; a Dataset without columns gives None."
  },
  {
   "property": "C86",
   "status": "partial",
   "theorems": [
    "Verif.Cols.other_exact",
    "Verif.Cols.summary_length_raises",
    "Verif.Cols.conform_exact",
    "Verif.Cols.summary_lost_counterexample",
    "Verif.Cols.not_conform_counterexample"
   ],
   "note": "In full without summaries and for conforming Datasets; a column called Summary0 is lost (counterexample), and Datasets that do not conform lose summaries and footers."
  },
  {
   "property": "C87",
   "status": "partial",
   "theorems": [
    "Verif.Cols.inplace_exact",
    "Verif.Cols.inplace_once",
    "Verif.Cols.inplace_failure",
    "Verif.Cols.shared_counterexample"
   ],
   "note": "How often each array is changed is characterised for all layouts; the claim fails for columns that share an array. After a failure exactly the columns before it are changed."
  },
  {
   "property": "C88",
   "status": "partial",
   "theorems": [
    "Verif.Cols.footers_partial",
    "Verif.Cols.conform_exact",
    "Verif.Cols.footer_stale_counterexample",
    "Verif.Cols.footer_swapped_counterexample",
    "Verif.Cols.footer_label_counterexample",
    "Verif.Cols.footer_array_counterexample",
    "Verif.Cols.not_conform_counterexample"
   ],
   "note": "For labels first, summaries named in column order and rows without missing values (and, with another Dataset, for all conforming ones with NaN for missing values). Outside that the code leaves stale or misplaced footers; row names are always replaced."
  },
  {
   "property": "C89",
   "status": "partial",
   "theorems": [
    "Verif.Reduce.by_column",
    "Verif.Reduce.by_column_named",
    "Verif.Reduce.whole_partial",
    "Verif.Reduce.whole_parts",
    "Verif.Reduce.by_column_label_counterexample",
    "Verif.Reduce.whole_counterexample"
   ],
   "note": "By column in full. The whole is the function of all entries if every column can be computed with, or for functions computable by parts; otherwise the code reduces the results of the columns (count becomes the number of columns)."
  },
  {
   "property": "C90",
   "status": "partial",
   "theorems": [
    "Verif.Reduce.by_row_exact",
    "Verif.Reduce.by_row_partial",
    "Verif.Reduce.by_row_fill",
    "Verif.Reduce.totals_first",
    "Verif.Reduce.totals_partial",
    "Verif.Reduce.by_row_changes_counterexample",
    "Verif.Reduce.by_row_label_counterexample",
    "Verif.Reduce.totals_stale_counterexample"
   ],
   "note": "Results and the Dataset afterwards are characterised for all Datasets: the columns are converted to a common dtype in place. With a fill value labels take part. Totals asked for later use the matrix of the first request."
  },
  {
   "property": "C91",
   "status": "partial",
   "theorems": [
    "Verif.Reduce.any_whole",
    "Verif.Reduce.all_whole",
    "Verif.Reduce.any_all_columns",
    "Verif.Reduce.any_all_rows",
    "Verif.Reduce.any_all_agree_partial",
    "Verif.Reduce.mask_exact",
    "Verif.Reduce.any_other_counterexample"
   ],
   "note": "In full for columns of numbers and texts; columns of other types (complex) are ignored by row only. Categoricals among the columns are not modelled."
  },
  {
   "property": "C92",
   "status": "partial",
   "theorems": [
    "Verif.Reduce.transpose_value",
    "Verif.Reduce.transpose_partial",
    "Verif.Reduce.transpose_plain",
    "Verif.Reduce.transpose_round_trip_partial",
    "Verif.Reduce.transpose_equal_labels_counterexample",
    "Verif.Reduce.transpose_header_counterexample",
    "Verif.Reduce.transpose_joined_counterexample"
   ],
   "note": "In full without labels; with labels if the new names differ, as otherwise rows are lost (counterexamples). Columns one cannot compute with are left out by design."
  },
  {
   "property": "C93",
   "status": "partial",
   "theorems": [
    "Verif.Arr.shift_exact",
    "Verif.Arr.shift_shift",
    "Verif.Arr.shift_back",
    "Verif.Arr.transitions_exact",
    "Verif.Arr.differs_exact",
    "Verif.Arr.compare_zero",
    "Verif.Arr.text_exact",
    "Verif.Arr.text_transitions_partial",
    "Verif.Arr.diff_exact",
    "Verif.Arr.diff_sum",
    "Verif.Arr.diff_zero_exact",
    "Verif.Arr.replacena_exact",
    "Verif.Arr.text_transitions_counterexample",
    "Verif.Arr.text_differs_counterexample",
    "Verif.Arr.diff_zero_counterexample"
   ],
   "note": "In full for shift and for numbers. For strings differs is the opposite of what it is for numbers and the first entry counts as a change (counterexamples); diff(0) raises."
  },
  {
   "property": "C94",
   "status": "partial",
   "theorems": [
    "Verif.Arr.nunique_exact",
    "Verif.Arr.nunique_congr",
    "Verif.Arr.duplicated_exact",
    "Verif.Arr.kept_once",
    "Verif.Arr.nunique_bool_counterexample"
   ],
   "note": "In full for duplicated, and for nunique of all dtypes whose sentinel is at the end looked at; for bools False is taken for invalid (counterexample). Complex numbers raise (not modelled)."
  },
  {
   "property": "C95",
   "status": "proved",
   "theorems": [
    "Verif.CatOps.list_eq_exact"
   ],
   "note": "For all Categoricals and lists; an empty list raises."
  },
  {
   "property": "C96",
   "status": "partial",
   "theorems": [
    "Verif.CatOps.list_ne_exact",
    "Verif.CatOps.list_ne_partial",
    "Verif.CatOps.list_ne_all",
    "Verif.CatOps.array_exact",
    "Verif.CatOps.array_eq_partial",
    "Verif.CatOps.list_ne_counterexample",
    "Verif.CatOps.array_filtered_counterexample"
   ],
   "note": "Behaviour characterised for all inputs; != with two different labels is True everywhere, and filtered rows compare as the sentinel (counterexamples)."
  },
  {
   "property": "C97",
   "status": "partial",
   "theorems": [
    "Verif.CatOps.assign_partial",
    "Verif.CatOps.assign_other_raises",
    "Verif.CatOps.assign_other_ignored",
    "Verif.CatOps.assign_numbers_counterexample",
    "Verif.CatOps.assign_base_counterexample"
   ],
   "note": "In full for the same categories and base index; otherwise the code writes the rows of c itself or raises (counterexamples)."
  },
  {
   "property": "C98",
   "status": "partial",
   "theorems": [
    "Verif.CatOps.mapDict_exact",
    "Verif.CatOps.mapDict_missing",
    "Verif.CatOps.mapDict_full_partial",
    "Verif.CatOps.mapArray_exact",
    "Verif.CatOps.mapArray_raises",
    "Verif.CatOps.mapDict_invalid_counterexample",
    "Verif.CatOps.mapDict_filtered_counterexample",
    "Verif.CatOps.mapArray_bool_counterexample"
   ],
   "note": "Characterised for all inputs; invalid is ignored for filtered rows if the dictionary has all categories, and bools raise (counterexamples)."
  },
  {
   "property": "C99",
   "status": "proved",
   "theorems": [
    "Verif.CatOps.oneHot_exact",
    "Verif.CatOps.oneHot_once"
   ],
   "note": "Single key, default categories; the dtype of the arrays is not modelled."
  }
 ]
}