# Axioms used by each property theorem

Generated by tools/axioms.sh (Lean's collectAxioms).  The three names are Lean's standard axioms; no other axiom occurs.

| theorem | axioms |
|---|---|
| `C01_exponent_refused` | Classical.choice, Quot.sound, propext |
| `C01_round_trip` | Classical.choice, Quot.sound, propext |
| `C02_parse_sound` | Classical.choice, Quot.sound, propext |
| `C03_parse_complete` | Classical.choice, Quot.sound, propext |
| `C03_reject` | Classical.choice, Quot.sound, propext |
| `C04_higher_row` | Classical.choice, Quot.sound, propext |
| `C04_left_assoc` | Classical.choice, Quot.sound, propext |
| `C04_precedence` | Classical.choice, Quot.sound, propext |
| `C04_rows` | none |
| `C04_unambiguous` | Classical.choice, Quot.sound, propext |
| `C05_counterexample_grouping` | Quot.sound, propext |
| `C05_counterexample_minus` | Quot.sound, propext |
| `C05_counterexample_node_type` | Quot.sound, propext |
| `C05_counterexample_root` | Quot.sound, propext |
| `C05_faithful` | Classical.choice, Quot.sound, propext |
| `C06_counterexample` | Quot.sound, propext |
| `C06_eof` | Quot.sound, propext |
| `C06_history` | propext |
| `C07_counterexample` | Quot.sound, propext |
| `C07_disambiguation` | Classical.choice, Quot.sound, propext |
| `C08_counterexample` | Quot.sound, propext |
| `C08_names` | Classical.choice, Quot.sound, propext |
| `C09_around` | Classical.choice, Quot.sound, propext |
| `C09_change` | Classical.choice, Quot.sound, propext |
| `C09_insert` | Classical.choice, Quot.sound, propext |
| `C100_append_position` | Classical.choice, Quot.sound, propext |
| `C100_assign` | Classical.choice, Quot.sound, propext |
| `C100_assign_longer` | Classical.choice, Quot.sound, propext |
| `C100_counterexample_append` | propext |
| `C100_counterexample_assign` | propext |
| `C100_delete` | Classical.choice, Quot.sound, propext |
| `C100_errors_change_nothing` | Classical.choice, Quot.sound, propext |
| `C100_list_refinement` | Classical.choice, Quot.sound, propext |
| `C100_operations` | Classical.choice, Quot.sound, propext |
| `C100_read` | Classical.choice, Quot.sound, propext |
| `C100_results` | Classical.choice, Quot.sound, propext |
| `C101_counterexample_too_many` | Classical.choice, Quot.sound, propext |
| `C101_counterexample_white_space` | propext |
| `C101_counterexample_zero` | Classical.choice, Quot.sound, propext |
| `C101_edited_integers` | Classical.choice, Quot.sound, propext |
| `C101_edited_strings` | Classical.choice, Quot.sound, propext |
| `C101_integers` | Classical.choice, Quot.sound, propext |
| `C101_number` | Classical.choice, Quot.sound, propext |
| `C101_shown_integers` | Classical.choice, Quot.sound, propext |
| `C101_shown_strings` | Classical.choice, Quot.sound, propext |
| `C101_strings` | Classical.choice, Quot.sound, propext |
| `C101_untouched_integers` | Classical.choice, Quot.sound, propext |
| `C101_untouched_strings` | Classical.choice, Quot.sound, propext |
| `C102_counterexample_choice` | Quot.sound, propext |
| `C102_counterexample_schema` | Quot.sound, propext |
| `C102_counts` | Quot.sound, propext |
| `C102_number` | Classical.choice, Quot.sound, propext |
| `C102_ordered` | Classical.choice, Quot.sound, propext |
| `C102_saved` | Classical.choice, Quot.sound, propext |
| `C102_sent` | Classical.choice, Quot.sound, propext |
| `C102_shown` | Classical.choice, Quot.sound, propext |
| `C102_untouched` | Classical.choice, Quot.sound, propext |
| `C102_untouched_ordered` | Classical.choice, Quot.sound, propext |
| `C103_any_data` | none |
| `C103_counts` | Classical.choice, Quot.sound, propext |
| `C103_distinct` | Classical.choice, Quot.sound, propext |
| `C103_invalid` | Classical.choice, Quot.sound, propext |
| `C103_missing_counts` | Quot.sound, propext |
| `C103_saved` | Classical.choice, Quot.sound, propext |
| `C103_sent` | Classical.choice, Quot.sound, propext |
| `C103_shown` | Classical.choice, Quot.sound, propext |
| `C103_untouched` | Classical.choice, Quot.sound, propext |
| `C104_as_class` | Quot.sound, propext |
| `C104_counterexample_exclude` | propext |
| `C104_counterexample_parsed` | propext |
| `C104_counterexample_widget` | propext |
| `C104_options` | Quot.sound, propext |
| `C104_override` | propext |
| `C104_plain` | Classical.choice, Quot.sound, propext |
| `C104_required` | Classical.choice, Quot.sound, propext |
| `C104_type_error` | Classical.choice, Quot.sound, propext |
| `C105_append_empty` | Classical.choice, Quot.sound, propext |
| `C105_assign` | Classical.choice, Quot.sound, propext |
| `C105_assign_other` | Classical.choice, Quot.sound, propext |
| `C105_counterexample_append` | propext |
| `C105_counterexample_assign` | propext |
| `C105_counterexample_predicate` | propext |
| `C105_delete` | Classical.choice, Quot.sound, propext |
| `C105_delete_empty` | Classical.choice, Quot.sound, propext |
| `C105_insert_negative` | Classical.choice, Quot.sound, propext |
| `C105_integers` | Classical.choice, Quot.sound, propext |
| `C105_ops` | Classical.choice, Quot.sound, propext |
| `C105_read` | Classical.choice, Quot.sound, propext |
| `C105_refuses_elements` | Quot.sound, propext |
| `C105_strings` | Classical.choice, Quot.sound, propext |
| `C106_aware` | Classical.choice, Quot.sound, propext |
| `C106_counterexample_instants` | propext |
| `C106_zone_is_lost` | Classical.choice, Quot.sound, propext |
| `C107_history` | Classical.choice, Quot.sound, propext |
| `C107_read` | Classical.choice, Quot.sound, propext |
| `C107_text_kept` | Classical.choice, Quot.sound, propext |
| `C107_text_lost` | Classical.choice, Quot.sound, propext |
| `C107_undo` | Classical.choice, Quot.sound, propext |
| `C108_blanks` | Quot.sound, propext |
| `C108_counterexample_dates` | propext |
| `C108_effect` | Classical.choice, Quot.sound, propext |
| `C108_history` | Classical.choice, Quot.sound, propext |
| `C108_out_of_range` | Classical.choice, Quot.sound, propext |
| `C109_counterexample_swap` | Classical.choice, Quot.sound, propext |
| `C109_counterexample_twice` | Quot.sound, propext |
| `C109_extend_self` | Classical.choice, Quot.sound, propext |
| `C109_history` | Classical.choice, Quot.sound, propext |
| `C109_rearrange` | Classical.choice, Quot.sound, propext |
| `C10_counterexample` | Quot.sound, propext |
| `C10_exact` | Classical.choice, Quot.sound, propext |
| `C10_hex` | Classical.choice, Quot.sound, propext |
| `C110_cleanup_stops` | Classical.choice, Quot.sound, propext |
| `C110_does_nothing` | Classical.choice, Quot.sound, propext |
| `C110_list_clear` | propext |
| `C110_list_reads` | propext |
| `C110_list_takes_one` | propext |
| `C110_only_takes_away` | Quot.sound, propext |
| `C111_counterexample_itself` | propext |
| `C111_counterexample_upwards` | Quot.sound, propext |
| `C111_histories` | Classical.choice, Quot.sound, propext |
| `C111_lists` | Classical.choice, Quot.sound, propext |
| `C111_local` | Classical.choice, Quot.sound, propext |
| `C111_outside` | Classical.choice, Quot.sound, propext |
| `C111_paths` | Classical.choice, Quot.sound, propext |
| `C111_paths_inside` | Classical.choice, Quot.sound, propext |
| `C112_counterexample_unfit` | Quot.sound, propext |
| `C112_history` | Classical.choice, Quot.sound, propext |
| `C113_assign` | Quot.sound, propext |
| `C113_delete` | Quot.sound, propext |
| `C113_instantiate` | Quot.sound, propext |
| `C113_not_finite` | propext |
| `C114_history` | Classical.choice, Quot.sound, propext |
| `C114_no_parent` | Classical.choice, Quot.sound, propext |
| `C114_one_parent` | Classical.choice, Quot.sound, propext |
| `C115_bundled_cells` | Classical.choice, Quot.sound, propext |
| `C115_message_id_lost` | Classical.choice, Quot.sound, propext |
| `C115_new_object` | Classical.choice, Quot.sound, propext |
| `C116_append` | Classical.choice, Quot.sound, propext |
| `C116_assignment` | Classical.choice, Quot.sound, propext |
| `C116_create` | Classical.choice, Quot.sound, propext |
| `C116_found` | Classical.choice, Quot.sound, propext |
| `C116_item` | Classical.choice, Quot.sound, propext |
| `C116_no_value` | Quot.sound, propext |
| `C116_nothing_lost` | Classical.choice, Quot.sound, propext |
| `C116_tags` | Classical.choice, Quot.sound, propext |
| `C117_adding_is_refused` | Classical.choice, Quot.sound, propext |
| `C117_assign` | Classical.choice, Quot.sound, propext |
| `C117_assign_longer` | Classical.choice, Quot.sound, propext |
| `C117_bundled` | Classical.choice, Quot.sound, propext |
| `C117_bundled_path` | Quot.sound, propext |
| `C117_bundled_refuse` | propext |
| `C117_counterexample_nested` | Quot.sound, propext |
| `C117_delete` | Classical.choice, Quot.sound, propext |
| `C117_errors_change_nothing` | Classical.choice, Quot.sound, propext |
| `C117_list_refinement` | Classical.choice, Quot.sound, propext |
| `C117_operations` | Classical.choice, Quot.sound, propext |
| `C117_read` | Classical.choice, Quot.sound, propext |
| `C117_single_read` | Quot.sound, propext |
| `C117_single_refused` | Quot.sound, propext |
| `C117_single_write` | Classical.choice, Quot.sound, propext |
| `C117_storable_last` | propext |
| `C118_append_empty` | Classical.choice, Quot.sound, propext |
| `C118_assign` | Classical.choice, Quot.sound, propext |
| `C118_assign_other` | Classical.choice, Quot.sound, propext |
| `C118_counterexample_append` | propext |
| `C118_counterexample_tail` | propext |
| `C118_delete` | Classical.choice, Quot.sound, propext |
| `C118_delete_empty` | Classical.choice, Quot.sound, propext |
| `C118_insert_negative` | Classical.choice, Quot.sound, propext |
| `C118_integers` | Classical.choice, Quot.sound, propext |
| `C118_ops` | Classical.choice, Quot.sound, propext |
| `C118_read` | Classical.choice, Quot.sound, propext |
| `C118_strings` | Classical.choice, Quot.sound, propext |
| `C119_counterexample_opened` | propext |
| `C119_counterexample_subform_only` | Quot.sound, propext |
| `C119_ordered` | Classical.choice, Quot.sound, propext |
| `C119_unordered` | Classical.choice, Quot.sound, propext |
| `C11_cover` | Classical.choice, Quot.sound, propext |
| `C11_exceptions` | Classical.choice, Quot.sound, propext |
| `C11_tokens` | Classical.choice, Quot.sound, propext |
| `C120_assign` | Quot.sound, propext |
| `C120_counterexample_absolute` | Quot.sound, propext |
| `C120_exceptions` | Quot.sound, propext |
| `C120_item` | Quot.sound, propext |
| `C120_reads` | Classical.choice, Quot.sound, propext |
| `C120_reads_integer` | Classical.choice, Quot.sound, propext |
| `C121_foreigners_stay` | Classical.choice, Quot.sound, propext |
| `C121_no_foreigners` | Classical.choice, Quot.sound, propext |
| `C122_provenance` | Classical.choice, Quot.sound, propext |
| `C123_del` | Quot.sound, propext |
| `C123_del_outside` | Quot.sound, propext |
| `C123_del_works` | Quot.sound, propext |
| `C123_pop` | Quot.sound, propext |
| `C123_pop_last` | Quot.sound, propext |
| `C123_pop_outside` | Quot.sound, propext |
| `C123_pop_works` | Quot.sound, propext |
| `C123_remove` | Classical.choice, Quot.sound, propext |
| `C123_remove_works` | Classical.choice, Quot.sound, propext |
| `C124_assign` | Quot.sound, propext |
| `C124_blameless` | Quot.sound, propext |
| `C124_create` | propext |
| `C124_delete` | Quot.sound, propext |
| `C124_list` | Classical.choice, Quot.sound, propext |
| `C124_list_assign` | Quot.sound, propext |
| `C124_list_clear` | Classical.choice, Quot.sound, propext |
| `C124_object` | Quot.sound, propext |
| `C124_object_list` | Classical.choice, Quot.sound, propext |
| `C124_read` | propext |
| `C125_item` | Classical.choice, Quot.sound, propext |
| `C125_item_works` | Classical.choice, Quot.sound, propext |
| `C125_last` | Classical.choice, Quot.sound, propext |
| `C125_list` | Classical.choice, Quot.sound, propext |
| `C125_list_works` | Classical.choice, Quot.sound, propext |
| `C125_same` | Classical.choice, Quot.sound, propext |
| `C125_twice` | Classical.choice, Quot.sound, propext |
| `C126_append` | propext |
| `C126_extend` | propext |
| `C126_negative` | Classical.choice, Quot.sound, propext |
| `C126_outside` | Quot.sound, propext |
| `C126_reading` | Quot.sound, propext |
| `C126_taking` | Classical.choice, Quot.sound, propext |
| `C127_alone` | Classical.choice, Quot.sound, propext |
| `C127_counterexample_same` | Classical.choice, Quot.sound, propext |
| `C127_elsewhere` | Classical.choice, Quot.sound, propext |
| `C127_finished` | Classical.choice, Quot.sound, propext |
| `C127_items` | Classical.choice, Quot.sound, propext |
| `C127_order` | Classical.choice, Quot.sound, propext |
| `C127_unused` | propext |
| `C128_commute` | Classical.choice, Quot.sound, propext |
| `C128_counterexample_created` | Quot.sound, propext |
| `C129_behind` | Classical.choice, Quot.sound, propext |
| `C129_extend` | Classical.choice, Quot.sound, propext |
| `C129_inside` | Classical.choice, Quot.sound, propext |
| `C129_item` | Quot.sound, propext |
| `C129_refused_text` | Quot.sound, propext |
| `C129_stops` | Quot.sound, propext |
| `C12_counterexample_attribute_named_text` | Quot.sound, propext |
| `C12_counterexample_predicate_names_target` | Quot.sound, propext |
| `C12_counterexample_tail_text` | Quot.sound, propext |
| `C12_refused_children` | Quot.sound, propext |
| `C12_set_then_get` | Classical.choice, Quot.sound, propext |
| `C130_assign` | Quot.sound, propext |
| `C130_determined` | propext |
| `C130_empty` | Quot.sound, propext |
| `C130_ends` | Quot.sound, propext |
| `C130_length` | Quot.sound, propext |
| `C131_counterexample_position` | propext |
| `C131_del_is_assign_nil` | Classical.choice, Quot.sound, propext |
| `C131_emptied` | Classical.choice, Quot.sound, propext |
| `C131_history` | Classical.choice, Quot.sound, propext |
| `C131_same` | Classical.choice, Quot.sound, propext |
| `C132_copy` | Classical.choice, Quot.sound, propext |
| `C132_item` | Quot.sound, propext |
| `C132_more` | Classical.choice, Quot.sound, propext |
| `C132_prefix` | Classical.choice, Quot.sound, propext |
| `C132_self` | Classical.choice, Quot.sound, propext |
| `C132_self_values` | Classical.choice, Quot.sound, propext |
| `C133_clear` | Classical.choice, Quot.sound, propext |
| `C133_nodes` | Quot.sound, propext |
| `C133_trim` | Quot.sound, propext |
| `C13_one_element` | Classical.choice, Quot.sound, propext |
| `C13_only_target` | Classical.choice, Quot.sound, propext |
| `C13_outside` | Classical.choice, Quot.sound, propext |
| `C14_creates_missing` | Classical.choice, Quot.sound, propext |
| `C14_one_new_child` | Classical.choice, Quot.sound, propext |
| `C15_counterexample_attribute` | Quot.sound, propext |
| `C15_counterexample_garbage` | Quot.sound, propext |
| `C15_counterexample_silent` | Quot.sound, propext |
| `C15_refused` | Classical.choice, Quot.sound, propext |
| `C16_counterexample_key_error` | propext |
| `C16_counterexample_not_aligned` | propext |
| `C16_counterexample_predicate_key_error` | propext |
| `C16_counterexample_tail` | propext |
| `C16_counterexample_text` | propext |
| `C16_removes_match` | Classical.choice, Quot.sound, propext |
| `C16_then_none` | Classical.choice, Quot.sound, propext |
| `C16_then_none_any` | Classical.choice, Quot.sound, propext |
| `C17_absent` | Quot.sound, propext |
| `C17_counterexample_mappers` | propext |
| `C17_mappers` | propext |
| `C17_none_is_delete` | Quot.sound, propext |
| `C18_counterexample_bare_predicate` | Quot.sound, propext |
| `C18_counterexample_empty_parent` | Quot.sound, propext |
| `C18_counterexample_predicate_inside` | Quot.sound, propext |
| `C18_set_then_delete` | Classical.choice, Quot.sound, propext |
| `C18_set_then_delete_any` | Classical.choice, Quot.sound, propext |
| `C19_cleanup` | Classical.choice, Quot.sound, propext |
| `C19_cleanup_any` | Classical.choice, Quot.sound, propext |
| `C19_counterexample_text` | propext |
| `C20_absent` | propext |
| `C20_none_values` | propext |
| `C20_read_is_pure` | propext |
| `C20_reads_first_match` | Classical.choice, Quot.sound, propext |
| `C21_create_idempotent` | Classical.choice, Quot.sound, propext |
| `C22_counterexample` | Quot.sound, propext |
| `C22_counterexample_ancestor` | Classical.choice, Quot.sound, propext |
| `C22_graft` | Classical.choice, Quot.sound, propext |
| `C22_hoist` | Classical.choice, Quot.sound, propext |
| `C22_move` | Classical.choice, Quot.sound, propext |
| `C22_read_back` | Classical.choice, Quot.sound, propext |
| `C23_idempotent` | Classical.choice, Quot.sound, propext |
| `C23_last_write_wins` | Classical.choice, Quot.sound, propext |
| `C24_counterexample_concrete` | Quot.sound, propext |
| `C24_counterexample_element` | Quot.sound, propext |
| `C24_string_self_assign` | Classical.choice, Quot.sound, propext |
| `C25_counterexample_negative_insert` | propext |
| `C25_counterexample_own_element` | Quot.sound, propext |
| `C25_counterexample_scalar` | propext |
| `C25_list_refinement` | Classical.choice, Quot.sound, propext |
| `C26_assign_reads_back` | Classical.choice, Quot.sound, propext |
| `C27_counterexample_attributes` | propext |
| `C27_delete_empties` | Classical.choice, Quot.sound, propext |
| `C28_append_position` | Classical.choice, Quot.sound, propext |
| `C28_counterexample_two_steps` | propext |
| `C29_list_frame` | Classical.choice, Quot.sound, propext |
| `C30_absent_value` | Classical.choice, Quot.sound, propext |
| `C30_errors_change_nothing` | Classical.choice, Quot.sound, propext |
| `C30_index_out_of_range` | Classical.choice, Quot.sound, propext |
| `C30_integer_keys` | propext |
| `C30_key_types` | propext |
| `C31_counterexample_precision` | propext |
| `C31_integer_round_trip` | Classical.choice, Quot.sound, propext |
| `C31_never_raises` | Classical.choice, Quot.sound, propext |
| `C32_boolean_round_trip` | Classical.choice, Quot.sound, propext |
| `C32_counterexample_equal_values` | propext |
| `C32_false_is_absent` | Classical.choice, Quot.sound, propext |
| `C32_tri_state` | Classical.choice, Quot.sound, propext |
| `C33_counterexample_date_only` | propext |
| `C33_counterexample_short_text` | propext |
| `C33_datetime_round_trip` | Classical.choice, Quot.sound, propext |
| `C33_errors` | Quot.sound, propext |
| `C33_fraction` | Classical.choice, Quot.sound, propext |
| `C33_only_valid_datetimes` | Classical.choice, Quot.sound, propext |
| `C33_time_zone_is_stripped` | Classical.choice, Quot.sound, propext |
| `C34_counterexample_early_years` | Classical.choice, Quot.sound, propext |
| `C34_counterexample_year_999` | propext |
| `C34_date_round_trip` | Classical.choice, Quot.sound, propext |
| `C34_errors` | propext |
| `C34_reads` | Classical.choice, Quot.sound, propext |
| `C35_count` | Quot.sound, propext |
| `C35_counterexample_falsy` | Quot.sound, propext |
| `C35_counterexample_string_field_over_number` | Quot.sound, propext |
| `C35_scalar_results` | Quot.sound, propext |
| `C36_counterexample_attributes` | Classical.choice, Quot.sound, propext |
| `C36_element_text` | Classical.choice, Quot.sound, propext |
| `C36_fixed_points` | Quot.sound, propext |
| `C36_normalisation` | Quot.sound, propext |
| `C37_counterexample_diamond` | propext |
| `C37_counterexample_hidden` | propext |
| `C37_create_method` | Quot.sound, propext |
| `C37_own_fields_win` | Quot.sound, propext |
| `C37_table_agrees_with_lookup` | Quot.sound, propext |
| `C37_table_is_complete` | Quot.sound, propext |
| `C38_counterexample_sharing` | propext |
| `C38_namespaces` | Classical.choice, Quot.sound, propext |
| `C38_no_default_namespace` | Classical.choice, Quot.sound, propext |
| `C38_sharing` | Classical.choice, Quot.sound, propext |
| `C38_stable` | Classical.choice, Quot.sound, propext |
| `C39_counterexample_base_uri` | propext |
| `C39_same_object` | Quot.sound, propext |
| `C39_schema_cache` | Quot.sound, propext |
| `C40_counterexample_shared_log` | none |
| `C40_history_independent` | Quot.sound, propext |
| `C40_valid_iff_no_errors` | propext |
| `C40_verdict` | Quot.sound, propext |
| `C41_counterexample_strings` | propext |
| `C41_equality_is_serialization` | propext |
| `C41_equivalence` | propext |
| `C42_counterexample_comment_and_tail` | none |
| `C42_empty_has_no_text` | Quot.sound, propext |
| `C42_is_empty` | Quot.sound, propext |
| `C43_parser_configuration` | propext |
| `C44_counterexample_alias` | none |
| `C44_default_order` | Classical.choice, Quot.sound, propext |
| `C44_numbered_in_order` | Classical.choice, Quot.sound, propext |
| `C44_replaced_in_place` | Classical.choice, Quot.sound, propext |
| `C45_choices` | Classical.choice, Quot.sound, propext |
| `C45_counterexample_two_blanks` | propext |
| `C45_one_blank` | Classical.choice, Quot.sound, propext |
| `C45_refused` | Classical.choice, Quot.sound, propext |
| `C46_counterexample_quote` | none |
| `C46_no_argument` | propext |
| `C46_unique` | propext |
| `C47_counterexample_twice` | propext |
| `C47_fields` | Classical.choice, Quot.sound, propext |
| `C47_levels` | Classical.choice, Quot.sound, propext |
| `C47_order` | Classical.choice, Quot.sound, propext |
| `C47_order_parents` | Classical.choice, Quot.sound, propext |
| `C48_counterexample_choice_list` | propext |
| `C48_counterexample_exclude_ignored` | propext |
| `C48_kinds` | Classical.choice, Quot.sound, propext |
| `C48_order_default` | Classical.choice, Quot.sound, propext |
| `C48_order_listed` | Classical.choice, Quot.sound, propext |
| `C48_selection` | Classical.choice, Quot.sound, propext |
| `C48_supported` | Classical.choice, Quot.sound, propext |
| `C49_counterexample_subform` | propext |
| `C49_errors` | Classical.choice, Quot.sound, propext |
| `C49_excluded_subform` | Quot.sound, propext |
| `C49_trace` | Classical.choice, Quot.sound, propext |
| `C49_update` | Classical.choice, Quot.sound, propext |
| `C50_counterexample_dash` | propext |
| `C50_keys` | Classical.choice, Quot.sound, propext |
| `C50_unambiguous` | Classical.choice, Quot.sound, propext |
| `C51_counterexample_zero` | Classical.choice, Quot.sound, propext |
| `C51_integers` | Classical.choice, Quot.sound, propext |
| `C51_strings` | Classical.choice, Quot.sound, propext |
| `C52_counterexample_deleted_extra` | none |
| `C52_counterexample_equal` | none |
| `C52_counterexample_order_loses` | none |
| `C52_counterexample_order_new` | none |
| `C52_counterexample_twice` | none |
| `C52_order` | Classical.choice, Quot.sound, propext |
| `C52_ordered` | Classical.choice, Quot.sound, propext |
| `C52_twice_ordered` | Classical.choice, Quot.sound, propext |
| `C52_twice_unordered` | Classical.choice, Quot.sound, propext |
| `C52_unordered` | Classical.choice, Quot.sound, propext |
| `C53_counterexample_touched` | propext |
| `C53_iff` | Classical.choice, Quot.sound, propext |
| `C53_no_schema` | Classical.choice, Quot.sound, propext |
| `C53_not_updated` | Classical.choice, Quot.sound, propext |
| `C53_own_invalid` | propext |
| `C53_schema_messages` | Quot.sound, propext |
| `C53_stays_invalid` | Classical.choice, Quot.sound, propext |
| `C53_valid_updated` | propext |
| `C54_again` | Classical.choice, Quot.sound, propext |
| `C54_counterexample_init` | propext |
| `C54_counterexample_tail` | Quot.sound, propext |
| `C54_counterexample_two` | Quot.sound, propext |
| `C54_detached` | Quot.sound, propext |
| `C54_init` | Classical.choice, Quot.sound, propext |
| `C54_lifecycle` | Classical.choice, Quot.sound, propext |
| `C54_outcome` | propext |
| `C54_update` | Classical.choice, Quot.sound, propext |
| `C55_counterexample_same_name` | Classical.choice, Quot.sound, propext |
| `C55_entries` | Classical.choice, Quot.sound, propext |
| `C55_files` | Classical.choice, Quot.sound, propext |
| `C55_location` | Classical.choice, Quot.sound, propext |
| `C55_raised` | Classical.choice, Quot.sound, propext |
| `C56_counterexample_broken` | Quot.sound, propext |
| `C56_crash` | Quot.sound, propext |
| `C56_not_saved` | Quot.sound, propext |
| `C56_saved` | Quot.sound, propext |
| `C57_already_there` | Quot.sound, propext |
| `C57_counterexample_separator` | none |
| `C57_counterexample_substring` | propext |
| `C57_idempotent` | Quot.sound, propext |
| `C57_registered_once` | Classical.choice, Quot.sound, propext |
| `C58_any_payload` | Classical.choice, Quot.sound, propext |
| `C58_body` | Classical.choice, Quot.sound, propext |
| `C58_counterexample_noncharacter` | Quot.sound, propext |
| `C58_removes_exactly` | Quot.sound, propext |
| `C59_counterexample_local_id` | Classical.choice, Quot.sound, propext |
| `C59_counterexample_sender` | Classical.choice, Quot.sound, propext |
| `C59_document` | Classical.choice, Quot.sound, propext |
| `C59_header_lists` | Classical.choice, Quot.sound, propext |
| `C59_header_names` | Classical.choice, Quot.sound, propext |
| `C59_single_headers` | Classical.choice, Quot.sound, propext |
| `C60_counterexample_no_rend` | Classical.choice, Quot.sound, propext |
| `C60_indent_number` | Classical.choice, Quot.sound, propext |
| `C60_not_a_number` | Classical.choice, Quot.sound, propext |
| `C60_other_rend` | Classical.choice, Quot.sound, propext |
| `C60_plain_indent` | Classical.choice, Quot.sound, propext |
| `C61_only_first_counts` | propext |
| `C61_series` | Classical.choice, Quot.sound, propext |
| `C61_subseries` | Classical.choice, Quot.sound, propext |
| `C62_counterexample_tail` | propext |
| `C62_text` | Classical.choice, Quot.sound, propext |
| `C62_with_date` | Classical.choice, Quot.sound, propext |
| `C62_without_date` | Classical.choice, Quot.sound, propext |
| `C63_counterexample_captured` | propext |
| `C63_counterexample_comment` | propext |
| `C63_counterexample_label` | propext |
| `C63_date` | propext |
| `C63_origin_info` | Classical.choice, Quot.sound, propext |
| `C63_part` | Classical.choice, Quot.sound, propext |
| `C63_part_detail` | Classical.choice, Quot.sound, propext |
| `C63_part_extent` | Classical.choice, Quot.sound, propext |
| `C63_title_info` | Classical.choice, Quot.sound, propext |
| `C63_typed_note` | Classical.choice, Quot.sound, propext |
| `C64_counterexample_overwritten` | Classical.choice, Quot.sound, propext |
| `C64_default_version` | Classical.choice, Quot.sound, propext |
| `C64_given_version` | Quot.sound, propext |
| `C64_only_version` | Classical.choice, Quot.sound, propext |
| `C65_counterexample_two_bases` | propext |
| `C65_schema_of_class` | Quot.sound, propext |
| `C66_accepted` | Classical.choice, Quot.sound, propext |
| `C66_self_reference` | Quot.sound, propext |
| `C66_wrong_name` | propext |
| `C67_strings_in_document_order` | Classical.choice, Quot.sound, propext |
| `C68_counterexample_recursive` | propext |
| `C68_limit_irrelevant` | propext |
| `C68_nested` | Classical.choice, Quot.sound, propext |
| `C69_apart_names` | propext |
| `C69_apart_predicates` | Quot.sound, propext |
| `C69_counterexample_overlap` | Quot.sound, propext |
| `C69_counterexample_prefix` | propext |
| `C69_counterexample_repeated` | propext |
| `C69_keeps_boolean` | propext |
| `C69_keeps_date` | Classical.choice, Quot.sound, propext |
| `C69_keeps_datetime` | Classical.choice, Quot.sound, propext |
| `C69_keeps_integer` | Classical.choice, Quot.sound, propext |
| `C69_keeps_string` | propext |
| `C69_last_assignment` | Classical.choice, Quot.sound, propext |
| `C69_new_element` | Classical.choice, Quot.sound, propext |
| `C69_record` | Classical.choice, Quot.sound, propext |
| `C69_tidy_check` | Quot.sound, propext |
| `C70_reload` | Classical.choice, Quot.sound, propext |
| `C70_save` | Classical.choice, Quot.sound, propext |
| `C71_counterexample_role` | Quot.sound, propext |
| `C71_counterexample_text_none` | Quot.sound, propext |
| `C71_last_assignment` | Classical.choice, Quot.sound, propext |
| `C71_text_and_attributes` | Classical.choice, Quot.sound, propext |
| `C72_bundled_leaves` | Classical.choice, Quot.sound, propext |
| `C72_bundled_records` | Classical.choice, Quot.sound, propext |
| `C72_counterexample_author` | Quot.sound, propext |
| `C72_counterexample_message_id` | Quot.sound, propext |
| `C72_interfering_pairs` | propext |
| `C72_keeps_boolean` | propext |
| `C72_keeps_integer` | Classical.choice, Quot.sound, propext |
| `C72_keeps_string` | propext |
| `C72_new_object` | Classical.choice, Quot.sound, propext |
| `C73_bundled` | Classical.choice, Quot.sound, propext |
| `C73_constructor` | Classical.choice, Quot.sound, propext |
| `C73_counterexample_bad_value` | Quot.sound, propext |
| `C73_order` | Classical.choice, Quot.sound, propext |
| `C74_mixed_history` | Classical.choice, Quot.sound, propext |
| `C74_new_element` | Classical.choice, Quot.sound, propext |
| `C74_shows` | Classical.choice, Quot.sound, propext |
| `C75_list` | Quot.sound, propext |
| `C75_refused` | Quot.sound, propext |
| `C75_simple` | Classical.choice, Quot.sound, propext |
| `C75_value_error` | Quot.sound, propext |
| `C76_delete_is_item_zero` | Classical.choice, Quot.sound, propext |
| `C76_empty` | propext |
| `C76_first_item` | propext |
| `C76_set_is_item_zero` | Quot.sound, propext |
| `C76_shared_history` | Classical.choice, Quot.sound, propext |
| `C77_bundled` | Classical.choice, Quot.sound, propext |
| `C77_dublin_core` | propext |
| `C77_history` | Classical.choice, Quot.sound, propext |
| `C77_new_object` | Classical.choice, Quot.sound, propext |
| `C78_counterexample_swapped` | Classical.choice, Quot.sound, propext |
| `C78_keeps` | propext |
| `C78_locked` | Classical.choice, Quot.sound, propext |
| `C78_locked_state` | Classical.choice, Quot.sound, propext |
| `C78_undisturbed` | Classical.choice, Quot.sound, propext |
| `C79_first_bad_token` | Classical.choice, Quot.sound, propext |
| `C79_incomplete` | Classical.choice, Quot.sound, propext |
| `C79_lexical` | Classical.choice, Quot.sound, propext |
| `C79_outcomes` | Quot.sound, propext |
| `C80_complete` | propext |
| `C80_counterexample_short` | propext |
| `C80_counterexample_twice` | Quot.sound, propext |
| `C80_counterexample_two_digits` | propext |
| `C80_counterexample_zone` | propext |
| `C80_date_format` | Classical.choice, Quot.sound, propext |
| `C80_datetime_format` | Classical.choice, Quot.sound, propext |
| `C80_datetime_unreadable` | Classical.choice, Quot.sound, propext |
| `C80_normalized` | Classical.choice, Quot.sound, propext |
| `C80_only_real` | Classical.choice, Quot.sound, propext |
| `C80_reads` | Classical.choice, Quot.sound, propext |
| `C81_boolean` | Classical.choice, Quot.sound, propext |
| `C81_date` | Classical.choice, Quot.sound, propext |
| `C81_date_format` | Classical.choice, Quot.sound, propext |
| `C81_datetime` | Classical.choice, Quot.sound, propext |
| `C81_datetime_format` | Classical.choice, Quot.sound, propext |
| `C81_integer` | Classical.choice, Quot.sound, propext |
| `C82_counterexample_number` | Quot.sound, propext |
| `C82_float_round_trip` | Classical.choice, Quot.sound, propext |
| `C82_reads` | Classical.choice, Quot.sound, propext |
| `C83_append_position` | Classical.choice, Quot.sound, propext |
| `C83_assign` | Classical.choice, Quot.sound, propext |
| `C83_counterexample_insert` | propext |
| `C83_delete` | Classical.choice, Quot.sound, propext |
| `C83_errors_change_nothing` | Classical.choice, Quot.sound, propext |
| `C83_frame` | Classical.choice, Quot.sound, propext |
| `C83_list_refinement` | Classical.choice, Quot.sound, propext |
| `C84_declared` | Classical.choice, Quot.sound, propext |
| `C84_instantiate` | Classical.choice, Quot.sound, propext |
| `C84_nested_record` | Classical.choice, Quot.sound, propext |
| `C84_new_element` | Classical.choice, Quot.sound, propext |
| `C84_object` | Classical.choice, Quot.sound, propext |
| `C84_others` | Classical.choice, Quot.sound, propext |
| `C84_reads` | Classical.choice, Quot.sound, propext |
| `C85_invalid` | Classical.choice, Quot.sound, propext |
| `C85_reads` | Classical.choice, Quot.sound, propext |
| `C85_refilled` | Classical.choice, Quot.sound, propext |
| `C85_replaced` | Classical.choice, Quot.sound, propext |
| `C85_save` | Classical.choice, Quot.sound, propext |
| `C85_unbound` | Quot.sound, propext |
| `C85_valid` | Classical.choice, Quot.sound, propext |
| `C86_distinct` | Classical.choice, Quot.sound, propext |
| `C86_names` | Quot.sound, propext |
| `C86_prefixed` | Quot.sound, propext |
| `C86_received` | Classical.choice, Quot.sound, propext |
| `C87_balanced` | Quot.sound, propext |
| `C87_counterexample_empty_formset` | propext |
| `C87_counterexample_no_label` | Quot.sound, propext |
| `C87_inputs` | propext |
| `C87_page` | Quot.sound, propext |
| `C87_when` | Quot.sound, propext |
| `C88_counterexample_alike` | Quot.sound, propext |
| `C88_counterexample_equal` | Quot.sound, propext |
| `C88_counterexample_stale` | Quot.sound, propext |
| `C88_counterexample_twice` | Quot.sound, propext |
| `C88_list_shows` | Classical.choice, Quot.sound, propext |
| `C88_ordered` | Classical.choice, Quot.sound, propext |
| `C88_twice` | Classical.choice, Quot.sound, propext |
| `C88_twice_ordered` | Classical.choice, Quot.sound, propext |
| `C88_unordered` | Classical.choice, Quot.sound, propext |
| `C89_counterexample_predicate` | Quot.sound, propext |
| `C89_ordered` | Classical.choice, Quot.sound, propext |
| `C89_unordered` | Classical.choice, Quot.sound, propext |
| `C89_updates` | Classical.choice, Quot.sound, propext |
| `C90_invalid` | Classical.choice, Quot.sound, propext |
| `C90_save` | Classical.choice, Quot.sound, propext |
| `C90_valid` | Classical.choice, Quot.sound, propext |
| `C91_counterexample_factory_delete` | propext |
| `C91_counterexample_plain_form` | propext |
| `C91_counterexample_subformfield` | propext |
| `C91_factory` | propext |
| `C91_formsets` | Classical.choice, Quot.sound, propext |
| `C91_same_parts` | Quot.sound, propext |
| `C91_statement` | propext |
| `C92_counterexample_declared_label` | propext |
| `C92_counterexample_formset_label` | propext |
| `C92_counterexample_heading` | propext |
| `C92_fields` | Classical.choice, Quot.sound, propext |
| `C92_formsets` | Classical.choice, Quot.sound, propext |
| `C92_label` | Quot.sound, propext |
| `C92_label_again` | Classical.choice, Quot.sound, propext |
| `C92_subform_labels` | Classical.choice, Quot.sound, propext |
| `C92_subforms` | Classical.choice, Quot.sound, propext |
| `C93_counterexample_bases` | propext |
| `C93_counterexample_subforms` | propext |
| `C93_declared` | Quot.sound, propext |
| `C93_subclass` | Quot.sound, propext |
| `C93_subform_classes` | Classical.choice, Quot.sound, propext |
| `C94_counterexample_choice` | Quot.sound, propext |
| `C94_counterexample_flag_of_nothing` | Quot.sound, propext |
| `C94_counterexample_no_date` | Quot.sound, propext |
| `C94_counterexample_unset_boolean` | Quot.sound, propext |
| `C94_counterexample_white_space` | Quot.sound, propext |
| `C94_cycle` | Classical.choice, Quot.sound, propext |
| `C94_invalid` | Classical.choice, Quot.sound, propext |
| `C94_unchanged` | Classical.choice, Quot.sound, propext |
| `C95_append_each` | Classical.choice, Quot.sound, propext |
| `C95_extend_self` | Classical.choice, Quot.sound, propext |
| `C95_loop` | Classical.choice, Quot.sound, propext |
| `C95_loop_assigning` | Classical.choice, Quot.sound, propext |
| `C95_remove_each` | Classical.choice, Quot.sound, propext |
| `C95_replace_each` | Classical.choice, Quot.sound, propext |
| `C96_assign_elements` | Classical.choice, Quot.sound, propext |
| `C96_assign_texts` | Classical.choice, Quot.sound, propext |
| `C96_counterexample_live_elements` | Classical.choice, Quot.sound, propext |
| `C96_extend_elements` | Classical.choice, Quot.sound, propext |
| `C96_self_elements` | Classical.choice, Quot.sound, propext |
| `C96_self_texts` | Classical.choice, Quot.sound, propext |
| `C97_assign_object` | Quot.sound, propext |
| `C97_counterexample_assign_itself` | Quot.sound, propext |
| `C97_counterexample_date` | propext |
| `C97_counterexample_delete` | Quot.sound, propext |
| `C97_counterexample_hash` | propext |
| `C97_counterexample_reference` | propext |
| `C97_delete` | Quot.sound, propext |
| `C97_history` | Classical.choice, Quot.sound, propext |
| `C97_read` | Quot.sound, propext |
| `C97_refused` | Quot.sound, propext |
| `C97_repr_account` | Classical.choice, Quot.sound, propext |
| `C97_repr_field` | Classical.choice, Quot.sound, propext |
| `C97_str` | Quot.sound, propext |
| `C97_str_date` | Classical.choice, Quot.sound, propext |
| `C97_str_hash` | Classical.choice, Quot.sound, propext |
| `C97_str_pair` | Classical.choice, Quot.sound, propext |
| `C97_str_text` | Quot.sound, propext |
| `C97_write` | Classical.choice, Quot.sound, propext |
| `C98_bad_parameter` | propext |
| `C98_compiled_agrees` | Quot.sound, propext |
| `C98_compiled_first` | propext |
| `C98_counterexample_no_stylesheet` | Quot.sound, propext |
| `C98_counterexample_tail` | Quot.sound, propext |
| `C98_counterexample_unused_file` | propext |
| `C98_transform` | Quot.sound, propext |
| `C99_counterexample_broken_graph` | Quot.sound, propext |
| `C99_counterexample_failed_download` | propext |
| `C99_one_download` | Quot.sound, propext |
| `C99_vocabulary` | Quot.sound, propext |
