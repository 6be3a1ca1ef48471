{
 "claims": [
  {
   "property": "C01",
   "status": "proved",
   "theorems": [
    "Verif.Config.C01_user_wins_defaults_fill",
    "Verif.Config.C01_rejected_iff_clash",
    "Verif.Config.C01_no_user_config"
   ],
   "note": ""
  },
  {
   "property": "C02",
   "status": "proved",
   "theorems": [
    "Verif.Config.C02_merge_idempotent"
   ],
   "note": ""
  },
  {
   "property": "C03",
   "status": "proved",
   "theorems": [
    "Verif.Config.C03_read_back",
    "Verif.Config.C03_other_paths_unchanged",
    "Verif.Config.C03_outer_slashes",
    "Verif.Config.C03_reading_nested"
   ],
   "note": ""
  },
  {
   "property": "C04",
   "status": "proved",
   "theorems": [
    "Verif.Config.C04_default_only_write",
    "Verif.Config.C04_plain_prefix_value_lost"
   ],
   "note": "Includes the witness that a plain value at a proper prefix of the path is lost."
  },
  {
   "property": "C05",
   "status": "partial",
   "theorems": [
    "Verif.Config.C05_classification_partial",
    "Verif.Config.C05_list_values_raise"
   ],
   "note": "Full classification for all stored values that are not lists; for lists of two or more items the code raises ValueError (negation proved)."
  },
  {
   "property": "C06",
   "status": "proved",
   "theorems": [
    "Verif.Labels.C06_multi_round_trip",
    "Verif.Labels.C06_simple_round_trip",
    "Verif.Labels.C06_simple_round_trip_uniform"
   ],
   "note": ""
  },
  {
   "property": "C07",
   "status": "proved",
   "theorems": [
    "Verif.Labels.C07_rows_and_uids",
    "Verif.Labels.C07_rows_preserved",
    "Verif.Labels.C07_ids_distinct",
    "Verif.Labels.C07_sorted"
   ],
   "note": ""
  },
  {
   "property": "C08",
   "status": "proved",
   "theorems": [
    "Verif.Logger.C08_no_repetition_no_invention",
    "Verif.Logger.C08_exactly_once_after_emit",
    "Verif.Logger.C08_immediate_warning"
   ],
   "note": ""
  },
  {
   "property": "C09",
   "status": "proved",
   "theorems": [
    "Verif.Units.C09_inverse_exact",
    "Verif.Units.C09_refused_iff_repeated"
   ],
   "note": ""
  },
  {
   "property": "C10",
   "status": "proved",
   "theorems": [
    "Verif.Units.C10_value",
    "Verif.Units.C10_rejection",
    "Verif.Units.C10_round_trip",
    "Verif.Units.C10_composition",
    "Verif.Units.C10_default_table",
    "Verif.Units.C10_default_table_length_to_area",
    "Verif.Units.C10_default_table_derived"
   ],
   "note": ""
  },
  {
   "property": "C11",
   "status": "proved",
   "theorems": [
    "Verif.Units.C11_single_meaning",
    "Verif.Units.C11_accepted_iff"
   ],
   "note": ""
  },
  {
   "property": "C12",
   "status": "proved",
   "theorems": [
    "Verif.Units.C12_exactly_matching_lines",
    "Verif.Units.C12_error_iff"
   ],
   "note": ""
  },
  {
   "property": "C13",
   "status": "proved",
   "theorems": [
    "Verif.UQ.C13_lhs_stratified"
   ],
   "note": ""
  },
  {
   "property": "C14",
   "status": "proved",
   "theorems": [
    "Verif.UQ.C14_names_unique",
    "Verif.UQ.C14_duplicate_refused",
    "Verif.UQ.C14_all_sampled"
   ],
   "note": ""
  },
  {
   "property": "C15",
   "status": "proved",
   "theorems": [
    "Verif.UQ.C15_same_uniform",
    "Verif.UQ.C15_anchored",
    "Verif.UQ.C15_ordered_alike",
    "Verif.UQ.C15_increasing_families"
   ],
   "note": ""
  },
  {
   "property": "C16",
   "status": "proved",
   "theorems": [
    "Verif.UQ.C16_same_variables",
    "Verif.UQ.C16_entries_follow",
    "Verif.UQ.C16_subset"
   ],
   "note": ""
  },
  {
   "property": "C17",
   "status": "partial",
   "theorems": [
    "Verif.UQ.C17_normal_within",
    "Verif.UQ.C17_normal_monotone",
    "Verif.UQ.C17_normal_refused",
    "Verif.UQ.C17_lognormal_partial",
    "Verif.UQ.C17_lognormal_negative_upper",
    "Verif.UQ.C17_uniform_partial",
    "Verif.UQ.C17_uniform_one_sided",
    "Verif.UQ.C17_uniform_leaves_support",
    "Verif.UQ.C17_weibull"
   ],
   "note": "Proved for all families and limits except a negative upper limit of a lognormal variable and one-sided limits of a uniform variable, where the code produces nan (both proved)."
  },
  {
   "property": "C18",
   "status": "partial",
   "theorems": [
    "Verif.UQ.C18_normal",
    "Verif.UQ.C18_uniform",
    "Verif.UQ.C18_lognormal_partial",
    "Verif.UQ.C18_lognormal_nonpositive_lower",
    "Verif.UQ.C18_parameters",
    "Verif.Weibull.C18_weibull",
    "Verif.Weibull.C18_weibull_cdf",
    "Verif.Weibull.C18_weibull_parameters"
   ],
   "note": "Proved for normal, uniform, lognormal and Weibull variables; a non-positive lower limit of a lognormal variable is accepted by sampling but not by cdf (proved)."
  },
  {
   "property": "C19",
   "status": "partial",
   "theorems": [
    "Verif.UQ.C19_unsupported_rejected",
    "Verif.UQ.C19_scale_twice",
    "Verif.UQ.C19_quantile_scaled_partial",
    "Verif.UQ.C19_multilinear_parameter"
   ],
   "note": "Proved for all supported families; truncated lognormal variables need a positive lower limit, because the stand-in for a missing one is not scaled."
  },
  {
   "property": "C20",
   "status": "proved",
   "theorems": [
    "Verif.UQ.C20_replay",
    "Verif.UQ.C20_empty",
    "Verif.UQ.C20_rows_together"
   ],
   "note": ""
  },
  {
   "property": "C21",
   "status": "proved",
   "theorems": [
    "Verif.UQ.C21_category",
    "Verif.UQ.C21_refused"
   ],
   "note": ""
  },
  {
   "property": "C22",
   "status": "partial",
   "theorems": [
    "Verif.UQ.C22_uniform_kept_partial",
    "Verif.UQ.C22_multinomial_overwrites",
    "Verif.UQ.C22_anchored_multinomial_wrong"
   ],
   "note": "Proved for all families but the multinomial, for which the uniform sample is overwritten (proved, with its effect on an anchored variable)."
  },
  {
   "property": "C23",
   "status": "proved",
   "theorems": [
    "Verif.UQ.C23_accepted_iff",
    "Verif.UQ.C23_inverse_monotone",
    "Verif.UQ.C23_inverse_range",
    "Verif.UQ.C23_cdf_inverse",
    "Verif.UQ.C23_inverse_cdf"
   ],
   "note": ""
  },
  {
   "property": "C24",
   "status": "proved",
   "theorems": [
    "Verif.UQ.C24_shares",
    "Verif.UQ.C24_one_rejected"
   ],
   "note": ""
  },
  {
   "property": "C25",
   "status": "partial",
   "theorems": [
    "Verif.LocDir.C25_documented",
    "Verif.LocDir.C25_keywords_need_stories",
    "Verif.LocDir.C25_accepted_partial",
    "Verif.LocDir.C25_mixed_entry_truncated",
    "Verif.LocDir.C25_fraction_truncated"
   ],
   "note": "The accepted strings are characterised completely; mixed lists and fractional numbers are accepted and cut silently (proved)."
  },
  {
   "property": "C26",
   "status": "partial",
   "theorems": [
    "Verif.LocDir.C26_documented_partial",
    "Verif.LocDir.C26_integers",
    "Verif.LocDir.C26_missing_direction",
    "Verif.LocDir.C26_mixed_refused"
   ],
   "note": "Proved for every documented entry; a missing direction is stored as '1.0' or refused (proved)."
  },
  {
   "property": "C27",
   "status": "proved",
   "theorems": [
    "Verif.Asset.C27_product",
    "Verif.Asset.C27_missing_quantity",
    "Verif.Asset.C27_accepted"
   ],
   "note": ""
  },
  {
   "property": "C28",
   "status": "partial",
   "theorems": [
    "Verif.DemandSample.C28_sample_round_trip",
    "Verif.FileIO.C28_saved_values",
    "Verif.FileIO.C28_round_trip_partial",
    "Verif.FileIO.C28_without_units",
    "Verif.FileIO.C28_units_need_table",
    "Verif.FileIO.C28_unknown_unit_refused_on_save",
    "Verif.FileIO.C28_unknown_unit_ignored"
   ],
   "note": "The round trip is proved for units in the unit table; that unknown units are refused on loading is false (proved)."
  },
  {
   "property": "C29",
   "status": "proved",
   "theorems": [
    "Verif.DemandRid.C29_bounds",
    "Verif.DemandRid.C29_residual_drift",
    "Verif.DemandRid.C29_median",
    "Verif.DemandRid.C29_value",
    "Verif.DemandRid.C29_yield_drift_required",
    "Verif.DemandRid.C29_refused"
   ],
   "note": ""
  },
  {
   "property": "C30",
   "status": "proved",
   "theorems": [
    "Verif.DemandSample.C30_added_demand",
    "Verif.DemandSample.C30_refused",
    "Verif.DemandSample.C30_unknown_unit_accepted"
   ],
   "note": ""
  },
  {
   "property": "C31",
   "status": "partial",
   "theorems": [
    "Verif.DemandCalib.C31_all_entry",
    "Verif.DemandCalib.C31_own_entry_partial",
    "Verif.DemandCalib.C31_inherited_limit_scaled_twice",
    "Verif.DemandCalib.C31_subtype_entry_ignored",
    "Verif.DemandCalib.C31_refused"
   ],
   "note": "Proved unless a limit inherited from ALL meets an entry with a unit, where the limit is scaled twice (proved)."
  },
  {
   "property": "C32",
   "status": "proved",
   "theorems": [
    "Verif.DemandCalib.C32_filtered"
   ],
   "note": ""
  },
  {
   "property": "C33",
   "status": "partial",
   "theorems": [
    "Verif.DemandSample.C33_cloned_columns",
    "Verif.DemandSample.C33_duplicate_targets_refused",
    "Verif.DemandSample.C33_units_partial",
    "Verif.DemandSample.C33_labels_distinct_partial",
    "Verif.DemandSample.C33_collision_accepted",
    "Verif.DemandSample.C33_units_shifted_after_error_column"
   ],
   "note": "Values and labels are proved; clashing labels are accepted, and units shift after an ERROR column with a unit (both proved)."
  },
  {
   "property": "C34",
   "status": "proved",
   "theorems": [
    "Verif.DemandReq.C34_scaled_maximum",
    "Verif.DemandReq.C34_not_below_directional",
    "Verif.DemandReq.C34_no_factor_refused",
    "Verif.DemandReq.C34_subtype_does_not_inherit",
    "Verif.DemandReq.C34_directional"
   ],
   "note": ""
  },
  {
   "property": "C35",
   "status": "proved",
   "theorems": [
    "Verif.DemandReq.C35_partition",
    "Verif.DemandReq.C35_simple_key",
    "Verif.DemandReq.C35_negative_location_refused",
    "Verif.DemandReq.C35_expression_key",
    "Verif.DemandReq.C35_missing_demand_refused",
    "Verif.DemandReq.C35_unknown_component_refused",
    "Verif.DemandReq.C35_label_reads_back"
   ],
   "note": ""
  },
  {
   "property": "C36",
   "status": "proved",
   "theorems": [
    "Verif.DmgBatch.C36_batches",
    "Verif.DmgBatch.C36_no_blocks_refused"
   ],
   "note": ""
  },
  {
   "property": "C37",
   "status": "partial",
   "theorems": [
    "Verif.DmgEval.C37_highest_exceeded_partial",
    "Verif.DmgEval.C37_ten_limit_states",
    "Verif.DmgEval.C37_gap"
   ],
   "note": "Proved for up to nine limit states numbered without gaps; false for ten and for gaps (both proved)."
  },
  {
   "property": "C38",
   "status": "partial",
   "theorems": [
    "Verif.DmgEval.C38_monotone_partial",
    "Verif.DmgEval.C38_gap"
   ],
   "note": "Same limits as C37; false with gaps (proved)."
  },
  {
   "property": "C39",
   "status": "partial",
   "theorems": [
    "Verif.DmgRVs.C39_consecutive_blocks",
    "Verif.DmgRVs.C39_state_weights",
    "Verif.DmgRVs.C39_by_number_partial",
    "Verif.DmgRVs.C39_weights_by_number_partial",
    "Verif.DmgRVs.C39_ten_limit_states"
   ],
   "note": "Consecutive blocks are proved for any number of limit states; the order by number for up to nine, false for ten (proved)."
  },
  {
   "property": "C40",
   "status": "proved",
   "theorems": [
    "Verif.DmgParams.C40_first_row_wins",
    "Verif.DmgParams.C40_missing",
    "Verif.DmgParams.C40_incomplete_row_hides",
    "Verif.DmgParams.C40_refused_iff"
   ],
   "note": ""
  },
  {
   "property": "C41",
   "status": "proved",
   "theorems": [
    "Verif.DmgQty.C41_columns",
    "Verif.DmgQty.C41_quantity",
    "Verif.DmgQty.C41_total",
    "Verif.DmgQty.C41_total_is_quantity",
    "Verif.DmgQty.C41_refused_iff",
    "Verif.DmgQty.C41_nonneg"
   ],
   "note": ""
  },
  {
   "property": "C42",
   "status": "proved",
   "theorems": [
    "Verif.DmgTasks.C42_event",
    "Verif.DmgTasks.C42_events_in_sequence",
    "Verif.DmgTasks.C42_targets_in_sequence",
    "Verif.DmgTasks.C42_one_target",
    "Verif.DmgTasks.C42_malformed_refused",
    "Verif.DmgTasks.C42_underscore_cut"
   ],
   "note": ""
  },
  {
   "property": "C43",
   "status": "proved",
   "theorems": [
    "Verif.DmgTasks.C43_event_at_location",
    "Verif.DmgTasks.C43_order_irrelevant"
   ],
   "note": ""
  },
  {
   "property": "C44",
   "status": "proved",
   "theorems": [
    "Verif.DmgTasks.C44_fema_p58",
    "Verif.DmgTasks.C44_hazus_buildings",
    "Verif.DmgTasks.C44_hazus_lifeline"
   ],
   "note": ""
  },
  {
   "property": "C45",
   "status": "partial",
   "theorems": [
    "Verif.DmgTasks.C45_order_partial",
    "Verif.DmgTasks.C45_ten_first"
   ],
   "note": "Proved for numbers with the same number of digits; false otherwise (proved)."
  },
  {
   "property": "C46",
   "status": "proved",
   "theorems": [
    "Verif.DmgQty.C46_all_states",
    "Verif.DmgQty.C46_no_duplicates",
    "Verif.DmgQty.C46_refused_iff"
   ],
   "note": ""
  },
  {
   "property": "C47",
   "status": "proved",
   "theorems": [
    "Verif.DmgRVs.C47_accepted_iff",
    "Verif.DmgRVs.C47_single_operation",
    "Verif.DmgRVs.C47_not_finite",
    "Verif.DmgRVs.C47_operation_per_realization",
    "Verif.DmgRVs.C47_others_unchanged"
   ],
   "note": ""
  },
  {
   "property": "C48",
   "status": "proved",
   "theorems": [
    "Verif.DmgQty.C48_distribution",
    "Verif.DmgQty.C48_blocks",
    "Verif.DmgQty.C48_all_na"
   ],
   "note": ""
  },
  {
   "property": "C49",
   "status": "partial",
   "theorems": [
    "Verif.LossParams.C49_user_map",
    "Verif.LossParams.C49_no_map",
    "Verif.LossParams.C49_flagged_map",
    "Verif.LossParams.C49_mixed_flags_lose_entries",
    "Verif.LossParams.C49_flag_inside_id"
   ],
   "note": "Proved for maps whose ids are all flagged with DMG- or all un-flagged. Mixed flags and ids that contain the letters DMG lose entries (witnesses proved)."
  },
  {
   "property": "C50",
   "status": "partial",
   "theorems": [
    "Verif.LossParams.C50_cellwise",
    "Verif.LossParams.C50_accepted_iff",
    "Verif.LossParams.C50_first_row_partial",
    "Verif.LossParams.C50_mixture",
    "Verif.LossParams.C50_incomplete_leaks"
   ],
   "note": "Cell-wise precedence of the first source is proved for all sources; a row of one source is taken as a whole only if it is complete (mixture witnessed)."
  },
  {
   "property": "C51",
   "status": "partial",
   "theorems": [
    "Verif.LossAgg.C51_threshold_total_partial",
    "Verif.LossAgg.C51_exclusive_copies_partial",
    "Verif.LossAgg.C51_damage_replacement_adds_up",
    "Verif.LossAgg.C51_everything_is_added"
   ],
   "note": "The replacement-exclusive copies are not used by the aggregation, so damage-state replacement adds to repair losses (negation proved); exclusiveness is proved for the copies and for threshold-triggered replacement."
  },
  {
   "property": "C52",
   "status": "proved",
   "theorems": [
    "Verif.LossAgg.C52_thresholds",
    "Verif.LossAgg.C52_refused_iff",
    "Verif.LossAgg.C52_end_to_end"
   ],
   "note": ""
  },
  {
   "property": "C53",
   "status": "partial",
   "theorems": [
    "Verif.LossComb.C53_pair_in_set_order_partial",
    "Verif.LossComb.C53_unsorted_table_refused",
    "Verif.LossComb.C53_symmetric_table_partial",
    "Verif.LossComb.C53_accepted",
    "Verif.LossComb.C53_depends_on_set_order",
    "Verif.LossComb.C53_silently_wrong_axis",
    "Verif.LossComb.C53_third_component_refused",
    "Verif.LossComb.C53_no_location_refused",
    "Verif.LossComb.C53_location_left_out"
   ],
   "note": "Proved for symmetric tables and for the axis order that happens to be the iteration order of the set of the two components; that the result depends on this order, that a third component is refused and that other groups are left out are proved as witnesses."
  },
  {
   "property": "C54",
   "status": "proved",
   "theorems": [
    "Verif.LossAgg.C54_totals",
    "Verif.LossAgg.C54_time",
    "Verif.LossAgg.C54_no_other_columns",
    "Verif.LossAgg.C54_refused_iff",
    "Verif.LossAgg.C54_name_in_capitals_refused",
    "Verif.LossAgg.C54_joined_total",
    "Verif.LossAgg.C54_end_to_end",
    "Verif.LossAgg.C54_time_end_to_end"
   ],
   "note": ""
  },
  {
   "property": "C55",
   "status": "proved",
   "theorems": [
    "Verif.LossLf.C55_blocks_irrelevant",
    "Verif.LossLf.C55_value",
    "Verif.LossLf.C55_no_sample",
    "Verif.LossLf.C55_succeeds_iff",
    "Verif.LossLf.C55_out_of_range_refused",
    "Verif.LossLf.C55_zero_blocks",
    "Verif.LossLf.C55_missing_demand_is_no_loss"
   ],
   "note": ""
  },
  {
   "property": "C56",
   "status": "proved",
   "theorems": [
    "Verif.LossDs.C56_linear_between",
    "Verif.LossDs.C56_between_neighbours",
    "Verif.LossDs.C56_plateaus",
    "Verif.LossDs.C56_never_increases"
   ],
   "note": ""
  },
  {
   "property": "C57",
   "status": "proved",
   "theorems": [
    "Verif.LossParams.C57_missing_exact",
    "Verif.LossParams.C57_missing_sources"
   ],
   "note": ""
  },
  {
   "property": "C58",
   "status": "proved",
   "theorems": [
    "Verif.LossScale.C58_product",
    "Verif.LossScale.C58_refused_unchanged",
    "Verif.LossScale.C58_order_irrelevant",
    "Verif.LossScale.C58_cells",
    "Verif.LossScale.C58_backward_range_ignored"
   ],
   "note": ""
  },
  {
   "property": "C59",
   "status": "proved",
   "theorems": [
    "Verif.AsmDemand.C59_exactly_offending",
    "Verif.AsmDemand.C59_no_limits",
    "Verif.AsmDemand.C59_unknown_type_refused",
    "Verif.AsmDemand.C59_unreadable_limit_refused",
    "Verif.AsmDemand.C59_integer_limit_refused"
   ],
   "note": ""
  },
  {
   "property": "C60",
   "status": "partial",
   "theorems": [
    "Verif.AsmLoss.C60_entry_stays",
    "Verif.AsmLoss.C60_empty_entry_is_loaded",
    "Verif.AsmLoss.C60_values_partial",
    "Verif.AsmLoss.C60_exact_partial"
   ],
   "note": "The statement is false of the code: the drop only rebinds a local name. Proved: the empty entry stays in the table for every configuration and is loaded as a definition; the values of all other entries are as documented (C60_values_partial)."
  },
  {
   "property": "C61",
   "status": "partial",
   "theorems": [
    "Verif.AsmLoss.C61_plain_overwritten",
    "Verif.AsmLoss.C61_plain_others_partial",
    "Verif.AsmLoss.C61_flagged_respected",
    "Verif.AsmLoss.C61_flagged_without_collapse"
   ],
   "note": "Proved when all labels have the prefix DMG- and collapse is listed. For plain labels the entries for collapse and irreparable are overwritten, and for prefixed maps without collapse the added entries lose their names (both proved for every such map)."
  },
  {
   "property": "C62",
   "status": "proved",
   "theorems": [
    "Verif.Asset.C62_plain_unit",
    "Verif.Asset.C62_leading_quantity",
    "Verif.Asset.C62_refused",
    "Verif.Asset.C62_nan_quantity_accepted"
   ],
   "note": ""
  },
  {
   "property": "C63",
   "status": "partial",
   "theorems": [
    "Verif.AsmDemand.C63_units_by_type_partial",
    "Verif.AsmDemand.C63_inch",
    "Verif.AsmDemand.C63_length_unit_required",
    "Verif.AsmDemand.C63_given_units_kept",
    "Verif.AsmDemand.C63_added_units_partial",
    "Verif.AsmDemand.C63_types_without_unit",
    "Verif.AsmDemand.C63_unknown_acceleration_unit"
   ],
   "note": "Units are right for the listed demand types; types without a unit, missing length units and unknown acceleration units are proved as disagreements."
  },
  {
   "property": "C64",
   "status": "proved",
   "theorems": [
    "Verif.AsmProcess.C64_unchanged",
    "Verif.AsmProcess.C64_history",
    "Verif.AsmProcess.C64_type_in_target_would_leak",
    "Verif.AsmProcess.C64_fema_selected",
    "Verif.AsmProcess.C64_buildings_selected",
    "Verif.AsmProcess.C64_lifeline_selected",
    "Verif.AsmProcess.C64_no_typed_component",
    "Verif.AsmProcess.C64_other_approaches",
    "Verif.AsmProcess.C64_underscore_drops_task"
   ],
   "note": ""
  },
  {
   "property": "C65",
   "status": "partial",
   "theorems": [
    "Verif.ToolOut.C65_independent_partial",
    "Verif.ToolOut.C65_format_sticks",
    "Verif.ToolOut.C65_losses_lost",
    "Verif.ToolOut.C65_check_disabled",
    "Verif.ToolOut.C65_settings_leak",
    "Verif.ToolOut.C65_first_run"
   ],
   "note": "Proved for sessions without the configurations that change the shared defaults; for those it is false (proved)."
  },
  {
   "property": "C66",
   "status": "partial",
   "theorems": [
    "Verif.ToolOut.C66_tables_partial",
    "Verif.ToolOut.C66_tables_exact",
    "Verif.ToolOut.C66_json_exact",
    "Verif.ToolOut.C66_other_files",
    "Verif.ToolOut.C66_history_partial",
    "Verif.ToolOut.C66_history_tables",
    "Verif.ToolOut.C66_stale_json_witness",
    "Verif.ToolOut.C66_skipped_run_keeps_old_results"
   ],
   "note": "Proved for the tables; the JSON files of earlier runs stay (proved)."
  },
  {
   "property": "C67",
   "status": "proved",
   "theorems": [
    "Verif.ToolDmg.C67_governing",
    "Verif.ToolDmg.C67_accepted",
    "Verif.ToolDmg.C67_refused"
   ],
   "note": ""
  },
  {
   "property": "C68",
   "status": "proved",
   "theorems": [
    "Verif.RegFilter.C68_exact",
    "Verif.RegFilter.C68_refused",
    "Verif.RegFilter.C68_decreasing",
    "Verif.RegFilter.C68_listed",
    "Verif.RegFilter.C68_selected",
    "Verif.RegFilter.C68_unknown_refused",
    "Verif.RegFilter.C68_known_accepted",
    "Verif.RegFilter.C68_no_filter",
    "Verif.RegFilter.C68_malformed_refused",
    "Verif.RegFilter.C68_blank_selects_all"
   ],
   "note": ""
  },
  {
   "property": "C69",
   "status": "proved",
   "theorems": [
    "Verif.Regional.C69_schedule",
    "Verif.Regional.C69_independent",
    "Verif.Regional.C69_missing_building"
   ],
   "note": ""
  },
  {
   "property": "C70",
   "status": "partial",
   "theorems": [
    "Verif.Regional.C70_labels_partial",
    "Verif.Regional.C70_mislabelled"
   ],
   "note": "Proved for intensity measures listed in alphabetical order; labels are exchanged otherwise (proved)."
  },
  {
   "property": "C71",
   "status": "proved",
   "theorems": [
    "Verif.NNR.C71_weights",
    "Verif.NNR.C71_between",
    "Verif.NNR.C71_constant",
    "Verif.NNR.C71_ratio",
    "Verif.NNR.C71_coincident",
    "Verif.NNR.C71_formula",
    "Verif.NNR.C71_at_known_point",
    "Verif.NNR.C71_resampled",
    "Verif.NNR.C71_unknown_scheme"
   ],
   "note": ""
  },
  {
   "property": "C72",
   "status": "partial",
   "theorems": [
    "Verif.Dlml.C72_import_accepts_partial",
    "Verif.Dlml.C72_mixed_library",
    "Verif.Dlml.C72_update_repairs_partial",
    "Verif.Dlml.C72_early_interruption"
   ],
   "note": "False of the code (proved); what does hold is that a completed explicit update to another commit repairs every history."
  },
  {
   "property": "C73",
   "status": "partial",
   "theorems": [
    "Verif.Dlml.C73_history_partial",
    "Verif.Dlml.C73_uncached",
    "Verif.Dlml.C73_same_commit_does_nothing",
    "Verif.Dlml.C73_uncached_then_cached",
    "Verif.Dlml.C73_diverged_stale"
   ],
   "note": "Proved for commits other than the cached one, after any history; false for the cached commit after local changes (proved)."
  },
  {
   "property": "C74",
   "status": "partial",
   "theorems": [
    "Verif.Asset.C74_own_unit_partial",
    "Verif.Asset.C74_second_row_uses_first_unit"
   ],
   "note": "Proved when the rows of a component agree on their unit; false otherwise (proved)."
  },
  {
   "property": "C75",
   "status": "proved",
   "theorems": [
    "Verif.DemandSample.C75_headers",
    "Verif.DemandSample.C75_short_header",
    "Verif.DemandSample.C75_flagged_realizations_removed"
   ],
   "note": ""
  },
  {
   "property": "C76",
   "status": "partial",
   "theorems": [
    "Verif.DemandReq.C76_types_and_locations_partial",
    "Verif.DemandReq.C76_missing_direction_passes"
   ],
   "note": "Proved for types and locations; the direction is not checked (proved)."
  },
  {
   "property": "C77",
   "status": "partial",
   "theorems": [
    "Verif.DemandReq.C77_variables_in_order_partial",
    "Verif.DemandReq.C77_equal_demands_collapse",
    "Verif.DemandReq.C77_empty_expression_refused",
    "Verif.DemandReq.C77_expression_characters",
    "Verif.DemandReq.C77_unsafe_not_evaluated",
    "Verif.DemandReq.C77_no_expression",
    "Verif.DemandReq.C77_assembled"
   ],
   "note": "Proved for pairwise different demands; equal demands and missing expressions fail (both proved)."
  },
  {
   "property": "C78",
   "status": "partial",
   "theorems": [
    "Verif.LossParams.C78_same_rows_partial",
    "Verif.LossParams.C78_order_changes_sample"
   ],
   "note": "The rows are the same in every run; their order, and so the sample, is not (proved)."
  },
  {
   "property": "C79",
   "status": "partial",
   "theorems": [
    "Verif.LossLf.C79_other_consequence_refused",
    "Verif.LossLf.C79_same_consequence_partial",
    "Verif.LossLf.C79_distinct"
   ],
   "note": "Proved for maps of a component to itself; any other consequence stops with a KeyError (proved)."
  },
  {
   "property": "C80",
   "status": "partial",
   "theorems": [
    "Verif.LossDs.C80_formula_partial",
    "Verif.LossDs.C80_complete_partial",
    "Verif.LossDs.C80_nonneg",
    "Verif.LossDs.C80_separate_floors_refused",
    "Verif.LossDs.C80_unrealized_state_refused",
    "Verif.LossDs.C80_succeeds_iff",
    "Verif.LossDs.C80_no_damage",
    "Verif.LossDs.C80_distinct",
    "Verif.LossDs.C80_mixed_families_refused",
    "Verif.LossDs.C80_loss_function_only_refused"
   ],
   "note": "Formula and completeness are proved for every successful calculation. AcrossFloors switched off never succeeds, AcrossDamageStates fails when a defined state is not realized, and mixed random and deterministic states fail (all proved)."
  },
  {
   "property": "C81",
   "status": "proved",
   "theorems": [
    "Verif.AsmLoss.C81_automatic",
    "Verif.AsmLoss.C81_final",
    "Verif.AsmLoss.C81_hurricane_pair",
    "Verif.AsmLoss.C81_single_component",
    "Verif.AsmLoss.C81_single_component_pair"
   ],
   "note": ""
  },
  {
   "property": "C82",
   "status": "proved",
   "theorems": [
    "Verif.ToolDmg.C82_total"
   ],
   "note": ""
  },
  {
   "property": "C83",
   "status": "partial",
   "theorems": [
    "Verif.AsmAsset.C83_added_components_partial",
    "Verif.AsmAsset.C83_other_rows_kept",
    "Verif.AsmAsset.C83_both_refused",
    "Verif.AsmAsset.C83_sample_file",
    "Verif.AsmAsset.C83_own_row_merged",
    "Verif.AsmAsset.C83_group_without_demand"
   ],
   "note": "Proved for tables without the reserved names; rows with them are merged with the added ones (proved)."
  },
  {
   "property": "C84",
   "status": "partial",
   "theorems": [
    "Verif.DefaultPath.C84_other_paths_unchanged",
    "Verif.DefaultPath.C84_method_folder",
    "Verif.DefaultPath.C84_unknown_method_refused",
    "Verif.DefaultPath.C84_each_path",
    "Verif.DefaultPath.C84_legacy_partial",
    "Verif.DefaultPath.C84_legacy_name_without_method",
    "Verif.DefaultPath.C84_redundant_parts"
   ],
   "note": "Proved for the legacy names whose method is known; two legacy names stand for nothing (proved)."
  },
  {
   "property": "C85",
   "status": "partial",
   "theorems": [
    "Verif.AsmDamage.C85_priority",
    "Verif.AsmDamage.C85_unknown_database_refused",
    "Verif.AsmDamage.C85_folder_required",
    "Verif.AsmDamage.C85_collapse_fragility",
    "Verif.AsmDamage.C85_no_collapse_fragility",
    "Verif.AsmDamage.C85_irreparable",
    "Verif.AsmDamage.C85_water_network",
    "Verif.AsmDamage.C85_configured_demand_partial",
    "Verif.AsmDamage.C85_floor_demand_shifted",
    "Verif.AsmDamage.C85_placeholder_demand",
    "Verif.AsmDamage.C85_placeholder_never_triggers",
    "Verif.AsmDamage.C85_added_used_partial",
    "Verif.AsmDamage.C85_configuration_hidden",
    "Verif.AsmDamage.C85_collapse_number_refused",
    "Verif.AsmDamage.C85_collapse_refused"
   ],
   "note": "Proved for components without a row in the databases and demands without offset; both exceptions are false (proved)."
  },
  {
   "property": "C86",
   "status": "partial",
   "theorems": [
    "Verif.AsmRid.C86_final_sample_partial",
    "Verif.AsmRid.C86_refused",
    "Verif.AsmRid.C86_second_call_refused",
    "Verif.AsmRid.C86_schema_names_refused"
   ],
   "note": "Proved for samples without residual drifts; see the theorem for what is missing."
  },
  {
   "property": "C87",
   "status": "partial",
   "theorems": [
    "Verif.Samples.C87_component_sample",
    "Verif.Samples.C87_component_sample_without_uid",
    "Verif.Samples.C87_damage_sample",
    "Verif.Samples.C87_loss_sample_partial",
    "Verif.Samples.C87_loss_missing_variable_refused",
    "Verif.Samples.C87_dash_refused",
    "Verif.Samples.C87_loss_without_uid_refused",
    "Verif.Samples.C87_loss_function_sample_not_loadable",
    "Verif.Samples.C87_read_twice",
    "Verif.Samples.C87_combined",
    "Verif.Samples.C87_file_without_units_refused"
   ],
   "note": "Proved for complete loss samples without dashes; missing decision variables, dashes and loss-function samples are refused (all proved)."
  },
  {
   "property": "C88",
   "status": "partial",
   "theorems": [
    "Verif.DemandGen.C88_one_column_for_each_demand",
    "Verif.DemandGen.C88_raw_order",
    "Verif.DemandGen.C88_raw_values",
    "Verif.DemandGen.C88_distribution",
    "Verif.DemandGen.C88_deterministic",
    "Verif.DemandGen.C88_even_resampling",
    "Verif.DemandGen.C88_correlated",
    "Verif.DemandGen.C88_refused",
    "Verif.DemandGen.C88_raw_order_runs",
    "Verif.DemandGen.C88_component_sample",
    "Verif.DemandGen.C88_component_refused",
    "Verif.DemandGen.C88_save_load_partial",
    "Verif.DemandGen.C88_dictionary_without_data",
    "Verif.DemandGen.C88_dictionary_data_ignored",
    "Verif.DemandGen.C88_dictionary_model_unusable",
    "Verif.DemandGen.C88_no_correlation",
    "Verif.DemandGen.C88_old_data_kept"
   ],
   "note": "Sampling is proved in full; saving and loading of the fitted model needs a fresh prefix and a fresh model."
  },
  {
   "property": "C89",
   "status": "partial",
   "theorems": [
    "Verif.DmgSample.C89_one_state_per_block",
    "Verif.DmgSample.C89_highest_exceeded_partial",
    "Verif.DmgSample.C89_fragility",
    "Verif.DmgSample.C89_curve_normal",
    "Verif.DmgSample.C89_curve_lognormal",
    "Verif.DmgSample.C89_curve_fixed",
    "Verif.DmgSample.C89_curve_multilinear",
    "Verif.DmgSample.C89_no_limit_state",
    "Verif.DmgSample.C89_multilinear_blocks_violates",
    "Verif.DmgSample.C89_first_undefined_violates",
    "Verif.DmgSample.C89_nothing_to_evaluate"
   ],
   "note": "Proved for up to nine limit states; multilinear capacities with several blocks and undefined first limit states fail (both proved)."
  },
  {
   "property": "C90",
   "status": "partial",
   "theorems": [
    "Verif.DmgCalc.C90_quantities",
    "Verif.DmgCalc.C90_columns_have_quantities",
    "Verif.DmgCalc.C90_conservation",
    "Verif.DmgCalc.C90_process_total",
    "Verif.DmgCalc.C90_fragility",
    "Verif.DmgCalc.C90_collapse",
    "Verif.DmgCalc.C90_collapse_triggered",
    "Verif.DmgCalc.C90_higher_demand_partial",
    "Verif.DmgCalc.C90_higher_demand_quantities_partial",
    "Verif.DmgCalc.C90_all_states_partial"
   ],
   "note": "Quantities, conservation, fragility and damage processes are proved; rising demands and the list of all states exclude components with ten or more limit states or gaps between them."
  },
  {
   "property": "C91",
   "status": "partial",
   "theorems": [
    "Verif.LossDev.C91_deviations",
    "Verif.LossDev.C91_complete",
    "Verif.LossDev.C91_correlated_partial",
    "Verif.LossDev.C91_cost_in_name",
    "Verif.LossDev.C91_gaussian_partial",
    "Verif.LossDev.C91_share",
    "Verif.LossDev.C91_nonneg",
    "Verif.LossDev.C91_other_families_refused",
    "Verif.LossDev.C91_dashes_refused",
    "Verif.LossDev.C91_succeeds"
   ],
   "note": "Proved in full without correlation; with one, for names without \"Cost\" (false otherwise, proved).  Deterministic families and dashes in names are refused (proved)."
  },
  {
   "property": "C92",
   "status": "partial",
   "theorems": [
    "Verif.LossLfDev.C92_deviations",
    "Verif.LossLfDev.C92_labels_partial",
    "Verif.LossLfDev.C92_correlated_partial",
    "Verif.LossLfDev.C92_cost_in_name",
    "Verif.LossLfDev.C92_gaussian_partial",
    "Verif.LossLfDev.C92_share",
    "Verif.LossLfDev.C92_dashes_refused",
    "Verif.LossLfDev.C92_nonneg",
    "Verif.LossLfDev.C92_succeeds"
   ],
   "note": "Proved in full without correlation; with one, for names without \"Cost\" (false otherwise, proved).  The labels of the result are proved when components are mapped to consequences of the same name (C79).  Families other than normal and lognormal are not modelled."
  },
  {
   "property": "C93",
   "status": "partial",
   "theorems": [
    "Verif.ParamUnits.C93_repair_cost_partial",
    "Verif.ParamUnits.C93_curve_points",
    "Verif.ParamUnits.C93_distribution_partial",
    "Verif.ParamUnits.C93_other_units",
    "Verif.ParamUnits.C93_loss_function_partial",
    "Verif.ParamUnits.C93_no_unit",
    "Verif.ParamUnits.C93_other_cells",
    "Verif.ParamUnits.C93_units_known",
    "Verif.ParamUnits.C93_curve_rounded"
   ],
   "note": "Costs and losses are proved for numbers and for curves whose points have at most six significant digits after the conversion; other curves are rounded to six digits (C93_curve_points bounds the error, C93_curve_rounded is an instance).  Distributions under the conditions of C19."
  },
  {
   "property": "C94",
   "status": "partial",
   "theorems": [
    "Verif.ParamUnits.C94_loss_every_call_converts",
    "Verif.ParamUnits.C94_loss_kept_iff_partial",
    "Verif.ParamUnits.C94_damage_kept",
    "Verif.ParamUnits.C94_damage_first_definition",
    "Verif.ParamUnits.C94_damage_no_source_refused"
   ],
   "note": "Proved for the damage model.  False for the loss model: every call converts all parameters again (C94_loss_every_call_converts); C94_loss_kept_iff_partial says exactly when a number is kept."
  },
  {
   "property": "C95",
   "status": "partial",
   "theorems": [
    "Verif.LossCalc.C95_outcome",
    "Verif.LossCalc.C95_as_new_partial",
    "Verif.LossCalc.C95_damage_losses",
    "Verif.LossCalc.C95_loss_function_losses",
    "Verif.LossCalc.C95_loss_functions_stale",
    "Verif.LossCalc.C95_lengths_refused",
    "Verif.LossCalc.C95_no_damage",
    "Verif.LossCalc.C95_failed_half_done",
    "Verif.LossCalc.C95_removed_component_violates"
   ],
   "note": "C95_as_new_partial says exactly when it holds: losses from loss functions (damage) of an earlier calculation stay if the asset has no component with loss functions any more (there is no damage sample).  A calculation that fails in the loss functions has already replaced the losses from damage (C95_failed_half_done)."
  },
  {
   "property": "C96",
   "status": "partial",
   "theorems": [
    "Verif.DemandSave.C96_round_trip_partial",
    "Verif.DemandSave.C96_file_in_user_units",
    "Verif.DemandSave.C96_other_demands_refused",
    "Verif.DemandSave.C96_units_required",
    "Verif.DemandSave.C96_each_unit_required",
    "Verif.DemandSave.C96_unknown_family_refused"
   ],
   "note": "Numbers in the file are assumed to be restored exactly and labels have no dashes; families: normal, normal_std, normal_cov, lognormal, uniform, deterministic, empirical.  Curves (multilinear) are rounded (C93)."
  },
  {
   "property": "C97",
   "status": "partial",
   "theorems": [
    "Verif.ToolJson.C97_sample",
    "Verif.ToolJson.C97_statistics_partial",
    "Verif.ToolJson.C97_statistics_text"
   ],
   "note": "Samples are proved in full; for statistics only tables without units.  Statistics with units are written as texts (C97_statistics_text).  Duplicate labels, columns of booleans and integer columns (written as integers) are not distinguished."
  },
  {
   "property": "C98",
   "status": "proved",
   "theorems": [
    "Verif.Stats.C98_values",
    "Verif.Stats.C98_percentiles",
    "Verif.Stats.C98_percentiles_increase",
    "Verif.Stats.C98_std",
    "Verif.Stats.C98_log_std",
    "Verif.Stats.C98_no_values",
    "Verif.Stats.C98_order",
    "Verif.Stats.C98_units"
   ],
   "note": "Over the real numbers; infinite values are not modelled.  Percentiles as numpy's linear interpolation."
  },
  {
   "property": "C99",
   "status": "partial",
   "theorems": [
    "Verif.RegLoss.C99_hazus_partial",
    "Verif.RegLoss.C99_no_damage_no_loss",
    "Verif.RegLoss.C99_undamaged_refused",
    "Verif.RegLoss.C99_general_partial"
   ],
   "note": "For simulations that succeed; a building that is never damaged makes a Hazus earthquake simulation fail (C99_undamaged_refused) and has no result with other methods.  Building numbers are natural numbers; consequences are in the damage state model only."
  },
  {
   "property": "C100",
   "status": "proved",
   "theorems": [
    "Verif.RegDmg.C100_states",
    "Verif.RegDmg.C100_single",
    "Verif.RegDmg.C100_accepted",
    "Verif.RegDmg.C100_missing_refused"
   ],
   "note": "The damage sample is that of C90; locations are texts of integers."
  },
  {
   "property": "C101",
   "status": "proved",
   "theorems": [
    "Verif.ToolSave.C101_colocated",
    "Verif.ToolSave.C101_grouped",
    "Verif.ToolSave.C101_units",
    "Verif.ToolSave.C101_summary",
    "Verif.ToolSave.C101_summary_losses"
   ],
   "note": "Missing values are counted as zero in totals unless all are missing.  Statistics of the saved tables are C98, labels C87, JSON output C97."
  },
  {
   "property": "C102",
   "status": "partial",
   "theorems": [
    "Verif.DlmlCheck.C102_check_partial",
    "Verif.DlmlCheck.C102_at_most_a_day_old",
    "Verif.DlmlCheck.C102_checked_after_download",
    "Verif.DlmlCheck.C102_same_commit",
    "Verif.DlmlCheck.C102_no_cache",
    "Verif.DlmlCheck.C102_after_commit",
    "Verif.DlmlCheck.C102_failed_hides",
    "Verif.DlmlCheck.C102_clock_back"
   ],
   "note": "Proved for releases with different, fixed commits and updates with the cache; negations for the other cases.  Parsing of versions is a parameter with any order; the server resolves tags to commits."
  },
  {
   "property": "C103",
   "status": "partial",
   "theorems": [
    "Verif.Fit.C103_moments",
    "Verif.Fit.C103_likelihood_partial",
    "Verif.Fit.C103_correlation",
    "Verif.Fit.C103_units",
    "Verif.Fit.C103_bounded",
    "Verif.Fit.C103_unit_dependent",
    "Verif.Fit.C103_detection_is_truncation",
    "Verif.Fit.C103_overwritten",
    "Verif.Fit.C103_refused",
    "Verif.Fit.C103_detection_changes_fit"
   ],
   "note": "Maximum likelihood, moments, correlations and units are proved without limits, for all numbers of variables and samples; with limits negations.  The minimization, the joint fit of censored samples and the singular value decomposition are parameters; only what each theorem states is assumed of them (such parameters are shown to exist).  Real arithmetic."
  },
  {
   "property": "C104",
   "status": "partial",
   "theorems": [
    "Verif.DemandFit.C104_parameters_partial",
    "Verif.DemandFit.C104_correlations",
    "Verif.DemandFit.C104_normal_variance",
    "Verif.DemandFit.C104_unit_not_converted"
   ],
   "note": "Proved without limits, for lognormal and normal_std demands in base units, with the assumptions of C103; negations for normal demands and for units.  Settings are C31, filters C32."
  },
  {
   "property": "C105",
   "status": "partial",
   "theorems": [
    "Verif.FitPercentile.C105_exact_partial",
    "Verif.FitPercentile.C105_parameters",
    "Verif.FitPercentile.C105_choice",
    "Verif.FitPercentile.C105_lower_half",
    "Verif.FitPercentile.C105_signs"
   ],
   "note": "Proved if 1/2 is among the percentiles and a larger one is; negations without a larger one and for values of both signs.  The minimization is a parameter; real arithmetic."
  },
  {
   "property": "C106",
   "status": "partial",
   "theorems": [
    "Verif.ToolConfig.C106_accepted_partial",
    "Verif.ToolConfig.C106_schema",
    "Verif.ToolConfig.C106_required",
    "Verif.ToolConfig.C106_sections_optional",
    "Verif.ToolConfig.C106_completed",
    "Verif.ToolConfig.C106_sample_file_refused",
    "Verif.ToolConfig.C106_response_file_not_used",
    "Verif.ToolConfig.C106_generated",
    "Verif.ToolConfig.C106_generated_outputs"
   ],
   "note": "Proved for all configurations and default outputs that conform to the schema; negations for sample files and the default demand file.  Scripts that generate configurations are parameters; the number of samples of a generated configuration may be replaced by an option of its script."
  },
  {
   "property": "C107",
   "status": "partial",
   "theorems": [
    "Verif.Orthotope.C107_normal",
    "Verif.Orthotope.C107_column_partial",
    "Verif.Orthotope.C107_vector",
    "Verif.Orthotope.C107_one_variable",
    "Verif.Orthotope.C107_several_boxes",
    "Verif.Orthotope.C107_no_limits",
    "Verif.Orthotope.C107_families",
    "Verif.Orthotope.C107_lognormal",
    "Verif.Orthotope.C107_vector_wrong"
   ],
   "note": "Proved for limits in a column, for all families whose cdf is exact at the limits (normal, uniform, lognormal shown), and for normal variables with means and covariances.  False for vectors of limits of several variables (C107_vector, C107_vector_wrong).  mvndst of scipy is a parameter that is assumed exact; an exact instance is given for independent normal variables."
  },
  {
   "property": "C108",
   "status": "partial",
   "theorems": [
    "Verif.UQRows.C108_normal_partial",
    "Verif.UQRows.C108_lognormal_partial",
    "Verif.UQRows.C108_lognormal_mixed",
    "Verif.UQRows.C108_wrong_number",
    "Verif.UQRows.C108_lognormal_capacities",
    "Verif.UQRows.C108_normal_capacities_refused",
    "Verif.UQRows.C108_deterministic_capacities",
    "Verif.UQRows.C108_normal_std_refused",
    "Verif.UQRows.C108_constant_only"
   ],
   "note": "Proved for normal variables with mean and standard deviation, for lognormal variables and for lognormal capacities.  False for deterministic capacities (C108_deterministic_capacities); normal capacities with a coefficient of variation are refused."
  },
  {
   "property": "C109",
   "status": "partial",
   "theorems": [
    "Verif.AsmConseq.C109_sources",
    "Verif.AsmConseq.C109_accepted_iff",
    "Verif.AsmConseq.C109_cellwise",
    "Verif.AsmConseq.C109_priority_partial",
    "Verif.AsmConseq.C109_automatic",
    "Verif.AsmConseq.C109_file_names_refused",
    "Verif.AsmConseq.C109_unknown_database_refused",
    "Verif.AsmConseq.C109_folder_required",
    "Verif.AsmConseq.C109_map_required",
    "Verif.AsmConseq.C109_user_map",
    "Verif.AsmConseq.C109_redefined_time_refused",
    "Verif.AsmConseq.C109_mixture",
    "Verif.AsmConseq.C109_replacement_hidden"
   ],
   "note": "Proved cell by cell, and for whole rows if the first source fills every cell that another one fills.  False otherwise (C109_mixture), for file names of earlier versions, for redefined replacement times of Hazus and for replacement rows in tables."
  },
  {
   "property": "C110",
   "status": "partial",
   "theorems": [
    "Verif.LossTotal.C110_selection",
    "Verif.LossTotal.C110_selection_refused_iff",
    "Verif.LossTotal.C110_reported_partial",
    "Verif.LossTotal.C110_nothing_selected",
    "Verif.LossTotal.C110_no_losses_refused",
    "Verif.LossTotal.C110_no_losses_zero",
    "Verif.LossTotal.C110_thresholds_accepted_iff",
    "Verif.LossTotal.C110_thresholds",
    "Verif.LossTotal.C110_unknown_threshold_refused",
    "Verif.LossTotal.C110_combination_refused",
    "Verif.LossTotal.C110_combinations_refused",
    "Verif.LossTotal.C110_combined_total"
   ],
   "note": "Proved for a selection of at least one decision variable and an asset with losses.  False if nothing is selected (cost and time are reported) and without losses (the run stops)."
  },
  {
   "property": "C111",
   "status": "partial",
   "theorems": [
    "Verif.CommandLine.C111_options_partial",
    "Verif.CommandLine.C111_coupled_flag_ignored",
    "Verif.CommandLine.C111_any_order",
    "Verif.CommandLine.C111_stray_text_refused",
    "Verif.CommandLine.C111_unknown_word_refused",
    "Verif.CommandLine.C111_abbreviation",
    "Verif.CommandLine.C111_unclear_refused",
    "Verif.CommandLine.C111_formats",
    "Verif.CommandLine.C111_options_not_used",
    "Verif.CommandLine.C111_coupled_flag_calibrates",
    "Verif.CommandLine.C111_demands"
   ],
   "note": "Proved for all command lines whose switches without a value are --detailed_results and --log_file; false for --coupled_EDP without a value. The separator -- and joined short options beyond -cVALUE are not covered by the theorems."
  },
  {
   "property": "C112",
   "status": "partial",
   "theorems": [
    "Verif.DlmlTarget.C112_release_partial",
    "Verif.DlmlTarget.C112_unknown_release_refused",
    "Verif.DlmlTarget.C112_commit",
    "Verif.DlmlTarget.C112_other_lengths_refused",
    "Verif.DlmlTarget.C112_branch_instead",
    "Verif.DlmlTarget.C112_nested_tag",
    "Verif.DlmlTarget.C112_library",
    "Verif.DlmlTarget.C112_library_cached",
    "Verif.DlmlTarget.C112_branch_stale",
    "Verif.DlmlTarget.C112_file_list",
    "Verif.DlmlTarget.C112_files_inside",
    "Verif.DlmlTarget.C112_files_outside"
   ],
   "note": "Proved if the server answers the requests for tags and tags point to commits, directly or by one object; false otherwise (branch of the release, object of the inner tag)."
  },
  {
   "property": "C113",
   "status": "partial",
   "theorems": [
    "Verif.LoadTable.C113_by_row",
    "Verif.LoadTable.C113_by_column_partial",
    "Verif.LoadTable.C113_text_column_refused",
    "Verif.LoadTable.C113_no_units",
    "Verif.LoadTable.C113_file",
    "Verif.LoadTable.C113_numeric_unit",
    "Verif.LoadTable.C113_refused",
    "Verif.LoadTable.C113_empty_refused"
   ],
   "note": "Proved for variables in rows; for variables in columns with a table of units only if all columns are numeric (others are refused). The number read in a text is a parameter of the model."
  },
  {
   "property": "C114",
   "status": "partial",
   "theorems": [
    "Verif.Copula.C114_copula",
    "Verif.Copula.C114_marginal_partial",
    "Verif.Copula.C114_distribution_partial",
    "Verif.Copula.C114_normal_partial",
    "Verif.Copula.C114_perfect",
    "Verif.Copula.C114_opposite",
    "Verif.Copula.C114_uncorrelated",
    "Verif.Copula.C114_indefinite",
    "Verif.Copula.C114_others"
   ],
   "note": "Proved for positive semidefinite matrices, including singular ones; for others the distribution of a variable is not kept (proved). LAPACK's decompositions are assumed to be as documented, and are proved to exist for every symmetric matrix. The draws are those of Monte Carlo sampling."
  },
  {
   "property": "C115",
   "status": "proved",
   "theorems": [
    "Verif.DmgProb.C115_reached",
    "Verif.DmgProb.C115_undamaged",
    "Verif.DmgProb.C115_state",
    "Verif.DmgProb.C115_independent",
    "Verif.DmgProb.C115_accuracy"
   ],
   "note": "The draws of the generator are independent and uniform (Spec/DmgProb); that such draws and a successful calculation exist is proved beside the theorems. Demands are given numbers."
  },
  {
   "property": "C116",
   "status": "proved",
   "theorems": [
    "Verif.DmgDist.C116_reached",
    "Verif.DmgDist.C116_undamaged",
    "Verif.DmgDist.C116_state"
   ],
   "note": "Without damage process; component quantities and demands are given numbers. The fragility curves are those of the blocks at the demand (Fragility of C89); existence of a calculation with random draws is proved beside the theorems."
  },
  {
   "property": "C117",
   "status": "proved",
   "theorems": [
    "Verif.DmgLhs.C117_uniform",
    "Verif.DmgLhs.C117_reached",
    "Verif.DmgLhs.C117_undamaged",
    "Verif.DmgLhs.C117_state",
    "Verif.DmgLhs.C117_independent",
    "Verif.DmgLhs.C117_quantity_reached",
    "Verif.DmgLhs.C117_quantity_undamaged",
    "Verif.DmgLhs.C117_quantity_state"
   ],
   "note": "Assumes that all permutations are equally likely, that they are independent of the uniform numbers and that columns are independent (Spec/DmgLhs); such draws and a successful calculation are constructed. The share of realizations is within one realization of the probability (C89_fragility). The midpoint variant is not random within a stratum and not covered."
  },
  {
   "property": "C118",
   "status": "proved",
   "theorems": [
    "Verif.SampleProb.C118_joint",
    "Verif.SampleProb.C118_distribution",
    "Verif.SampleProb.C118_normal",
    "Verif.SampleProb.C118_category",
    "Verif.SampleProb.C118_data",
    "Verif.SampleProb.C118_demand",
    "Verif.SampleProb.C118_demand_data",
    "Verif.SampleProb.C118_quantity"
   ],
   "note": "Assumes that the generator returns independent uniform numbers and equally likely permutations (Spec/SampleProb); such draws and successful runs are constructed. Variables in a correlated set are the subject of C114. A variable that shares its anchor with another multinomial variable is excluded (C22). The cdf of an unlimited lognormal variable is only compared from the smallest positive number on."
  },
  {
   "property": "C119",
   "status": "proved",
   "theorems": [
    "Verif.LossProb.C119_joint",
    "Verif.LossProb.C119_one",
    "Verif.LossProb.C119_normal",
    "Verif.LossProb.C119_lognormal"
   ],
   "note": "Assumes that the generator returns independent uniform numbers and equally likely permutations (Spec/SampleProb); such draws and successful runs are constructed. Thresholds from the smallest positive number (times quantity and unit consequence) on, positive damaged quantities. With a correlation of cost and time see C91 and C114."
  },
  {
   "property": "C120",
   "status": "partial",
   "theorems": [
    "Verif.ToolRun.C120_calculations",
    "Verif.ToolRun.C120_tables",
    "Verif.ToolRun.C120_other_files",
    "Verif.ToolRun.C120_json_files",
    "Verif.ToolRun.C120_calculated",
    "Verif.ToolRun.C120_complete",
    "Verif.ToolRun.C120_json_complete",
    "Verif.ToolRun.C120_refused",
    "Verif.ToolRun.C120_accepted_runs_partial",
    "Verif.ToolRun.C120_loss_outputs_without_repair"
   ],
   "note": "False in one point: losses without repair losses are accepted together with outputs of repair losses, which are on by default, and the run then ends with an AssertionError after all calculations (C120_loss_outputs_without_repair); C120_accepted_runs_partial excludes this and the names of earlier versions. What is inside the calculations and the tables is the subject of the other properties."
  },
  {
   "property": "C121",
   "status": "proved",
   "theorems": [
    "Verif.LossLfProb.C121_blocks",
    "Verif.LossLfProb.C121_moments",
    "Verif.LossLfProb.C121_independent",
    "Verif.LossLfProb.C121_one_block"
   ],
   "note": "Real numbers instead of floats; the normal distribution and the exponential function are those of Mathlib. Correlated costs and times are not covered (C92 has the laws for each realization)."
  },
  {
   "property": "C122",
   "status": "proved",
   "theorems": [
    "Verif.CorrSample.C122_joint",
    "Verif.CorrSample.C122_marginal",
    "Verif.CorrSample.C122_normal",
    "Verif.CorrSample.C122_lognormal",
    "Verif.CorrSample.C122_demand",
    "Verif.CorrSample.C122_demand_normal",
    "Verif.CorrSample.C122_demand_lognormal"
   ],
   "note": "Real numbers instead of floats; the normal distribution is that of Mathlib; what cholesky and svd return is an argument that is as scipy promises. Matrices that are not positive semidefinite are in C114."
  },
  {
   "property": "C123",
   "status": "partial",
   "theorems": [
    "Verif.RidAdjust.C123_adjusted_partial",
    "Verif.RidAdjust.C123_refused",
    "Verif.RidAdjust.C123_bounds_partial",
    "Verif.RidAdjust.C123_other_unit",
    "Verif.RidAdjust.C123_percent_exceeds"
   ],
   "note": "Bounds are false for peak drifts in units other than 1 (negation proved). Samples that already have residual drifts are missing. The estimate of a column is an argument with the bounds of C29."
  },
  {
   "property": "C124",
   "status": "partial",
   "theorems": [
    "Verif.LossCorr.C124_joint_partial",
    "Verif.LossCorr.C124_one_partial"
   ],
   "note": "The word Cost must not be part of other names, because time variables are found by replacing it (negation in C91_cost_in_name). Correlations of exactly 1 and -1, for which the code uses a singular value decomposition, are not covered. Thresholds below the smallest positive deviation are not covered."
  },
  {
   "property": "C125",
   "status": "proved",
   "theorems": [
    "Verif.RngStream.C125_restart",
    "Verif.RngStream.C125_earlier",
    "Verif.RngStream.C125_same_numbers",
    "Verif.RngStream.C125_seed_again",
    "Verif.RngStream.C125_independent"
   ],
   "note": "numpy's generator is a parameter; for independence its calls return independent uniform numbers and equally likely permutations, all samples have the same number of realizations, and the registries are given (they do not depend on earlier samples). Members of correlated sets are in C122 and C124."
  },
  {
   "property": "C126",
   "status": "partial",
   "theorems": [
    "Verif.CalcDamage.C126_demands_partial",
    "Verif.CalcDamage.C126_demands_plain",
    "Verif.CalcDamage.C126_demands_drifts",
    "Verif.CalcDamage.C126_location_ignored",
    "Verif.CalcDamage.C126_documented_refused",
    "Verif.CalcDamage.C126_same_call",
    "Verif.CalcDamage.C126_failed",
    "Verif.CalcDamage.C126_second_call",
    "Verif.CalcDamage.C126_new_component"
   ],
   "note": "False for location and direction of the additional demand, for the documented keys of the residual drift configuration and for damage parameters in a second call (negations proved). The generated demands, the asset and the damage calculation are parameters; they are in C88, C25-C27 and C90."
  },
  {
   "property": "C127",
   "status": "partial",
   "theorems": [
    "Verif.CalcLoss.C127_same_call",
    "Verif.CalcLoss.C127_failed",
    "Verif.CalcLoss.C127_no_map_refused",
    "Verif.CalcLoss.C127_totals_partial",
    "Verif.CalcLoss.C127_no_losses_refused",
    "Verif.CalcLoss.C127_failed_hides",
    "Verif.CalcLoss.C127_repeated",
    "Verif.CalcLoss.C127_repeated_same_iff"
   ],
   "note": "False for repeated calls when units are converted, for assessments without losses and for what is reported after a failed call (negations proved). The loss calculation is a parameter (C95), and so are the units of the decision variables in the aggregated losses; thresholds and combinations are in C110."
  },
  {
   "property": "C128",
   "status": "partial",
   "theorems": [
    "Verif.Options.C128_values",
    "Verif.Options.C128_accepted_iff",
    "Verif.Options.C128_defaults",
    "Verif.Options.C128_other_entries",
    "Verif.Options.C128_dictionary_changed",
    "Verif.Options.C128_again",
    "Verif.Options.C128_units_partial",
    "Verif.Options.C128_default_units_lost"
   ],
   "note": "False for the dictionary of the user and for default units when there is a unit file (negations proved). That numpy accepts the seed and that the log file can be written is assumed; what is left in the dictionary when the merge fails is not modelled."
  },
  {
   "property": "C129",
   "status": "partial",
   "theorems": [
    "Verif.RegAsset.C129_groups",
    "Verif.RegAsset.C129_buildings_partial",
    "Verif.RegAsset.C129_refused",
    "Verif.RegAsset.C129_accepted",
    "Verif.RegAsset.C129_directions_added",
    "Verif.RegAsset.C129_repeated_once",
    "Verif.RegAsset.C129_chunk_partial",
    "Verif.RegAsset.C129_chunk_matters"
   ],
   "note": "False for buildings of a chunk that share a component in different quantities, units or directions, and for repeated rows (negations proved). The mapping script is an input; distribution families and blocks of its tables are dropped by the code; infinite quantities are not modelled."
  },
  {
   "property": "C130",
   "status": "partial",
   "theorems": [
    "Verif.DefaultData.C130_same_model",
    "Verif.DefaultData.C130_method",
    "Verif.DefaultData.C130_unknown_method",
    "Verif.DefaultData.C130_name_with_type",
    "Verif.DefaultData.C130_legacy_partial",
    "Verif.DefaultData.C130_legacy_refused"
   ],
   "note": "False for two legacy names (negation proved). How a file is read is an input here; for tables see C113."
  },
  {
   "property": "C131",
   "status": "partial",
   "theorems": [
    "Verif.RegDv.C131_last_decides",
    "Verif.RegDv.C131_agreed_partial",
    "Verif.RegDv.C131_hazus",
    "Verif.RegDv.C131_no_section",
    "Verif.RegDv.C131_not_reported"
   ],
   "note": "False for chunks whose buildings ask for different decision variables and for the Hazus earthquake method (negations proved)."
  },
  {
   "property": "C132",
   "status": "partial",
   "theorems": [
    "Verif.RegGrid.C132_accepted_iff",
    "Verif.RegGrid.C132_values",
    "Verif.RegGrid.C132_no_gaps_partial",
    "Verif.RegGrid.C132_short_file",
    "Verif.RegGrid.C132_refused",
    "Verif.RegGrid.C132_later_file",
    "Verif.RegGrid.C132_demands_partial"
   ],
   "note": "False if the files of the grid points have different numbers of rows below the number of samples (negation proved)."
  }
 ]
}