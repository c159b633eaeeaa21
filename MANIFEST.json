{
 "claims": [
  {
   "property": "C01",
   "status": "proved",
   "theorems": [
    "Props.C01_round_trip",
    "Props.C01_exponent_refused"
   ],
   "note": "XPath serialize/parse round trip"
  },
  {
   "property": "C02",
   "status": "proved",
   "theorems": [
    "Props.C02_parse_sound"
   ],
   "note": "parse accepts only the XPath grammar, and builds the tree the productions say"
  },
  {
   "property": "C03",
   "status": "proved",
   "theorems": [
    "Props.C03_parse_complete",
    "Props.C03_reject"
   ],
   "note": "parse accepts every expression of the XPath grammar"
  },
  {
   "property": "C04",
   "status": "proved",
   "theorems": [
    "Props.C04_precedence",
    "Props.C04_unambiguous",
    "Props.C04_left_assoc",
    "Props.C04_higher_row",
    "Props.C04_rows"
   ],
   "note": "Operator precedence and associativity"
  },
  {
   "property": "C05",
   "status": "proved",
   "theorems": [
    "Props.C05_counterexample_grouping",
    "Props.C05_counterexample_root",
    "Props.C05_counterexample_node_type",
    "Props.C05_counterexample_minus",
    "Props.C05_faithful"
   ],
   "note": "Unrestricted claim refuted by the C05_counterexample_* theorems."
  },
  {
   "property": "C06",
   "status": "proved",
   "theorems": [
    "Props.C06_counterexample",
    "Props.C06_history",
    "Props.C06_eof"
   ],
   "note": "Unrestricted claim refuted by C06_counterexample."
  },
  {
   "property": "C07",
   "status": "proved",
   "theorems": [
    "Props.C07_counterexample",
    "Props.C07_disambiguation"
   ],
   "note": "Unrestricted claim refuted by C07_counterexample (after ',' and '$')."
  },
  {
   "property": "C08",
   "status": "proved",
   "theorems": [
    "Props.C08_counterexample",
    "Props.C08_names"
   ],
   "note": "Unrestricted claim refuted by C08_counterexample (misspelt character class)."
  },
  {
   "property": "C09",
   "status": "proved",
   "theorems": [
    "Props.C09_change",
    "Props.C09_around",
    "Props.C09_insert"
   ],
   "note": "White space between tokens is insignificant"
  },
  {
   "property": "C10",
   "status": "proved",
   "theorems": [
    "Props.C10_counterexample",
    "Props.C10_hex",
    "Props.C10_exact"
   ],
   "note": "Exact characterisation; failing strings exist (C10_counterexample)."
  },
  {
   "property": "C11",
   "status": "proved",
   "theorems": [
    "Props.C11_cover",
    "Props.C11_tokens",
    "Props.C11_exceptions"
   ],
   "note": "Lexing loses nothing"
  },
  {
   "property": "C12",
   "status": "proved",
   "theorems": [
    "Props.C12_set_then_get",
    "Props.C12_refused_children",
    "Props.C12_counterexample_attribute_named_text",
    "Props.C12_counterexample_predicate_names_target",
    "Props.C12_counterexample_tail_text"
   ],
   "note": "For every engine satisfying Spec.EngineOk; unrestricted claim refuted by the C12_counterexample_* theorems."
  },
  {
   "property": "C13",
   "status": "proved",
   "theorems": [
    "Props.C13_one_element",
    "Props.C13_only_target",
    "Props.C13_outside"
   ],
   "note": "Setting a field changes nothing else"
  },
  {
   "property": "C14",
   "status": "proved",
   "theorems": [
    "Props.C14_creates_missing",
    "Props.C14_one_new_child"
   ],
   "note": "Creation reuses existing parents and appends only what is missing"
  },
  {
   "property": "C15",
   "status": "proved",
   "theorems": [
    "Props.C15_counterexample_attribute",
    "Props.C15_refused",
    "Props.C15_counterexample_garbage",
    "Props.C15_counterexample_silent"
   ],
   "note": "Garbage left by multi-step creation, and silently ignored predicates: C15_counterexample_*."
  },
  {
   "property": "C16",
   "status": "proved",
   "theorems": [
    "Props.C16_then_none_any",
    "Props.C16_counterexample_predicate_key_error",
    "Props.C16_removes_match",
    "Props.C16_then_none",
    "Props.C16_counterexample_not_aligned",
    "Props.C16_counterexample_key_error",
    "Props.C16_counterexample_text",
    "Props.C16_counterexample_tail"
   ],
   "note": "Without alignment refuted: C16_counterexample_*."
  },
  {
   "property": "C17",
   "status": "proved",
   "theorems": [
    "Props.C17_none_is_delete",
    "Props.C17_absent",
    "Props.C17_mappers",
    "Props.C17_counterexample_mappers"
   ],
   "note": "Dates and booleans with a false value: C17_counterexample_mappers."
  },
  {
   "property": "C18",
   "status": "proved",
   "theorems": [
    "Props.C18_set_then_delete_any",
    "Props.C18_counterexample_predicate_inside",
    "Props.C18_set_then_delete",
    "Props.C18_counterexample_empty_parent",
    "Props.C18_counterexample_bare_predicate"
   ],
   "note": "Hypotheses are needed: C18_counterexample_*."
  },
  {
   "property": "C19",
   "status": "proved",
   "theorems": [
    "Props.C19_cleanup_any",
    "Props.C19_cleanup",
    "Props.C19_counterexample_text"
   ],
   "note": "Text is not protected: C19_counterexample_text."
  },
  {
   "property": "C20",
   "status": "proved",
   "theorems": [
    "Props.C20_read_is_pure",
    "Props.C20_absent",
    "Props.C20_none_values",
    "Props.C20_reads_first_match"
   ],
   "note": "Reading is pure, and a missing node reads as None"
  },
  {
   "property": "C21",
   "status": "proved",
   "theorems": [
    "Props.C21_create_idempotent"
   ],
   "note": "create_<field> is idempotent"
  },
  {
   "property": "C22",
   "status": "proved",
   "theorems": [
    "Props.C22_graft",
    "Props.C22_read_back",
    "Props.C22_counterexample",
    "Props.C22_move",
    "Props.C22_hoist",
    "Props.C22_counterexample_ancestor"
   ],
   "note": "Own elements (same document): see C24 and graftOwn; C22_counterexample for tail and predicates."
  },
  {
   "property": "C23",
   "status": "proved",
   "theorems": [
    "Props.C23_last_write_wins",
    "Props.C23_idempotent"
   ],
   "note": "Last write wins"
  },
  {
   "property": "C24",
   "status": "proved",
   "theorems": [
    "Props.C24_string_self_assign",
    "Props.C24_counterexample_element",
    "Props.C24_counterexample_concrete"
   ],
   "note": "False for NodeFields (C24_counterexample_element holds for every document)."
  },
  {
   "property": "C25",
   "status": "proved",
   "theorems": [
    "Props.C25_list_refinement",
    "Props.C25_counterexample_negative_insert",
    "Props.C25_counterexample_own_element",
    "Props.C25_counterexample_scalar"
   ],
   "note": "Negative insert and assignment of own members refuted: C25_counterexample_*."
  },
  {
   "property": "C26",
   "status": "proved",
   "theorems": [
    "Props.C26_assign_reads_back"
   ],
   "note": "List assignment reads back"
  },
  {
   "property": "C27",
   "status": "proved",
   "theorems": [
    "Props.C27_delete_empties",
    "Props.C27_counterexample_attributes"
   ],
   "note": "False for lists of attributes: C27_counterexample_attributes."
  },
  {
   "property": "C28",
   "status": "proved",
   "theorems": [
    "Props.C28_append_position",
    "Props.C28_counterexample_two_steps"
   ],
   "note": "False for multi-step paths: C28_counterexample_two_steps."
  },
  {
   "property": "C29",
   "status": "proved",
   "theorems": [
    "Props.C29_list_frame"
   ],
   "note": "List operations never touch non-members"
  },
  {
   "property": "C30",
   "status": "proved",
   "theorems": [
    "Props.C30_key_types",
    "Props.C30_integer_keys",
    "Props.C30_errors_change_nothing",
    "Props.C30_index_out_of_range",
    "Props.C30_absent_value"
   ],
   "note": "Key types: C30_key_types, C30_integer_keys (assertions are on, i.e. no python -O)."
  },
  {
   "property": "C31",
   "status": "proved",
   "theorems": [
    "Props.C31_integer_round_trip",
    "Props.C31_never_raises",
    "Props.C31_counterexample_precision"
   ],
   "note": "Beyond 2^53 refuted: C31_counterexample_precision."
  },
  {
   "property": "C32",
   "status": "proved",
   "theorems": [
    "Props.C32_boolean_round_trip",
    "Props.C32_false_is_absent",
    "Props.C32_tri_state",
    "Props.C32_counterexample_equal_values"
   ],
   "note": "Boolean fields are tri-state and round trip"
  },
  {
   "property": "C33",
   "status": "proved",
   "theorems": [
    "Props.C33_datetime_round_trip",
    "Props.C33_time_zone_is_stripped",
    "Props.C33_only_valid_datetimes",
    "Props.C33_errors",
    "Props.C33_counterexample_short_text",
    "Props.C33_counterexample_date_only",
    "Props.C33_fraction"
   ],
   "note": "Short texts, dates without time, None: C33_counterexample_*."
  },
  {
   "property": "C34",
   "status": "proved",
   "theorems": [
    "Props.C34_errors",
    "Props.C34_date_round_trip",
    "Props.C34_counterexample_year_999",
    "Props.C34_counterexample_early_years",
    "Props.C34_reads"
   ],
   "note": "Refuted for all dates before year 1000: C34_counterexample_*."
  },
  {
   "property": "C35",
   "status": "proved",
   "theorems": [
    "Props.C35_scalar_results",
    "Props.C35_count",
    "Props.C35_counterexample_falsy",
    "Props.C35_counterexample_string_field_over_number"
   ],
   "note": "Falsy scalars and StringField over numbers: C35_counterexample_*."
  },
  {
   "property": "C36",
   "status": "proved",
   "theorems": [
    "Props.C36_element_text",
    "Props.C36_normalisation",
    "Props.C36_fixed_points",
    "Props.C36_counterexample_attributes"
   ],
   "note": "Attributes are not normalised: C36_counterexample_attributes."
  },
  {
   "property": "C37",
   "status": "proved",
   "theorems": [
    "Props.C37_table_is_complete",
    "Props.C37_own_fields_win",
    "Props.C37_create_method",
    "Props.C37_table_agrees_with_lookup",
    "Props.C37_counterexample_diamond",
    "Props.C37_counterexample_hidden"
   ],
   "note": "Diamond inheritance and fields hidden by other attributes make table and lookup differ: C37_counterexample_*."
  },
  {
   "property": "C38",
   "status": "proved",
   "theorems": [
    "Props.C38_namespaces",
    "Props.C38_no_default_namespace",
    "Props.C38_stable",
    "Props.C38_sharing",
    "Props.C38_counterexample_sharing"
   ],
   "note": "Shared context dictionaries: C38_sharing, C38_counterexample_sharing."
  },
  {
   "property": "C39",
   "status": "proved",
   "theorems": [
    "Props.C39_schema_cache",
    "Props.C39_same_object",
    "Props.C39_counterexample_base_uri"
   ],
   "note": "Base URI is not part of the cache key: C39_counterexample_base_uri."
  },
  {
   "property": "C40",
   "status": "proved",
   "theorems": [
    "Props.C40_verdict",
    "Props.C40_valid_iff_no_errors",
    "Props.C40_history_independent",
    "Props.C40_counterexample_shared_log"
   ],
   "note": "schema_validation_errors() alone shows the log of the last validation: C40_counterexample_shared_log."
  },
  {
   "property": "C41",
   "status": "proved",
   "theorems": [
    "Props.C41_equality_is_serialization",
    "Props.C41_equivalence",
    "Props.C41_counterexample_strings"
   ],
   "note": "Objects on strings: C41_counterexample_strings. The serializer is a parameter."
  },
  {
   "property": "C42",
   "status": "proved",
   "theorems": [
    "Props.C42_is_empty",
    "Props.C42_empty_has_no_text",
    "Props.C42_counterexample_comment_and_tail"
   ],
   "note": "Comments and tails: C42_counterexample_comment_and_tail."
  },
  {
   "property": "C43",
   "status": "proved",
   "theorems": [
    "Props.C43_parser_configuration"
   ],
   "note": "Parser configuration"
  },
  {
   "property": "C44",
   "status": "proved",
   "theorems": [
    "Props.C44_numbered_in_order",
    "Props.C44_replaced_in_place",
    "Props.C44_default_order",
    "Props.C44_counterexample_alias"
   ],
   "note": "One field under two names loses a place: C44_counterexample_alias."
  },
  {
   "property": "C45",
   "status": "proved",
   "theorems": [
    "Props.C45_choices",
    "Props.C45_refused",
    "Props.C45_one_blank",
    "Props.C45_counterexample_two_blanks"
   ],
   "note": "Two blanks: C45_counterexample_two_blanks."
  },
  {
   "property": "C46",
   "status": "proved",
   "theorems": [
    "Props.C46_unique",
    "Props.C46_counterexample_quote",
    "Props.C46_no_argument"
   ],
   "note": "Names with quotes: C46_counterexample_quote."
  },
  {
   "property": "C47",
   "status": "proved",
   "theorems": [
    "Props.C47_levels",
    "Props.C47_fields",
    "Props.C47_order",
    "Props.C47_order_parents",
    "Props.C47_counterexample_twice"
   ],
   "note": "Repetition: C47_counterexample_twice."
  },
  {
   "property": "C48",
   "status": "proved",
   "theorems": [
    "Props.C48_selection",
    "Props.C48_supported",
    "Props.C48_kinds",
    "Props.C48_order_listed",
    "Props.C48_order_default",
    "Props.C48_counterexample_choice_list",
    "Props.C48_counterexample_exclude_ignored"
   ],
   "note": "C48_counterexample_*: list field with choices; exclude ignored."
  },
  {
   "property": "C49",
   "status": "proved",
   "theorems": [
    "Props.C49_errors",
    "Props.C49_update",
    "Props.C49_trace",
    "Props.C49_counterexample_subform",
    "Props.C49_excluded_subform"
   ],
   "note": "Refuted outside the domain (C49_counterexample_subform): a generated subform whose parent selects some of its fields (Meta.fields is a ParsedFieldList) raises TypeError in update_instance."
  },
  {
   "property": "C50",
   "status": "proved",
   "theorems": [
    "Props.C50_keys",
    "Props.C50_unambiguous",
    "Props.C50_counterexample_dash"
   ],
   "note": "With '-' in a name: C50_counterexample_dash."
  },
  {
   "property": "C51",
   "status": "proved",
   "theorems": [
    "Props.C51_strings",
    "Props.C51_integers",
    "Props.C51_counterexample_zero"
   ],
   "note": "'All non-empty values' is refuted for integers: C51_counterexample_zero (0 is dropped)."
  },
  {
   "property": "C52",
   "status": "proved",
   "theorems": [
    "Props.C52_order",
    "Props.C52_unordered",
    "Props.C52_ordered",
    "Props.C52_twice_unordered",
    "Props.C52_twice_ordered",
    "Props.C52_counterexample_equal",
    "Props.C52_counterexample_deleted_extra",
    "Props.C52_counterexample_order_loses",
    "Props.C52_counterexample_order_new",
    "Props.C52_counterexample_twice"
   ],
   "note": "Validation (Django's deleted_forms and ordered_forms call is_valid, which updates each form's instance) is part of the model. Refuted without the conditions: C52_counterexample_equal (the wrong one of two equal elements is removed, the order changes), _deleted_extra, _order_loses, _order_new (two equal new elements of an ordered formset become one), _twice (is_valid() followed by update_instance() removes an element that got a deleted one's content). Contents are abstract; on the document: C88."
  },
  {
   "property": "C53",
   "status": "proved",
   "theorems": [
    "Props.C53_iff",
    "Props.C53_no_schema",
    "Props.C53_valid_updated",
    "Props.C53_schema_messages",
    "Props.C53_own_invalid",
    "Props.C53_not_updated",
    "Props.C53_stays_invalid",
    "Props.C53_counterexample_touched"
   ],
   "note": "'The instance is not touched if validation fails' is refuted for valid subforms (C53_counterexample_touched)."
  },
  {
   "property": "C54",
   "status": "proved",
   "theorems": [
    "Props.C54_detached",
    "Props.C54_outcome",
    "Props.C54_init",
    "Props.C54_update",
    "Props.C54_lifecycle",
    "Props.C54_again",
    "Props.C54_counterexample_init",
    "Props.C54_counterexample_two",
    "Props.C54_counterexample_tail"
   ],
   "note": "Refuted without the single match, or with text behind the element: C54_counterexample_two, _tail; C54_counterexample_init: creating a form already changes the document."
  },
  {
   "property": "C55",
   "status": "proved",
   "theorems": [
    "Props.C55_location",
    "Props.C55_entries",
    "Props.C55_raised",
    "Props.C55_files",
    "Props.C55_counterexample_same_name"
   ],
   "note": "The entry list runs through the list-field model (append on a NodeListField), for every XPath engine that satisfies EngineOk. Serialization and the comment are parameters. requests installed and existing directory assumed."
  },
  {
   "property": "C56",
   "status": "proved",
   "theorems": [
    "Props.C56_saved",
    "Props.C56_not_saved",
    "Props.C56_crash",
    "Props.C56_counterexample_broken"
   ],
   "note": "Unbuffered writes. C56_counterexample_broken: an interrupted download raises and has already replaced the file."
  },
  {
   "property": "C57",
   "status": "proved",
   "theorems": [
    "Props.C57_registered_once",
    "Props.C57_already_there",
    "Props.C57_idempotent",
    "Props.C57_counterexample_substring",
    "Props.C57_counterexample_separator"
   ],
   "note": "C57_counterexample_substring: a path that is only part of another entry is never registered. C57_counterexample_separator: libxml2 expects blanks, the code joins with colons."
  },
  {
   "property": "C58",
   "status": "proved",
   "theorems": [
    "Props.C58_removes_exactly",
    "Props.C58_body",
    "Props.C58_counterexample_noncharacter",
    "Props.C58_any_payload"
   ],
   "note": "Whole function modelled on documents through the field managers. Date conversion, charset decoding and str(bytes) are parameters."
  },
  {
   "property": "C59",
   "status": "proved",
   "theorems": [
    "Props.C59_document",
    "Props.C59_header_lists",
    "Props.C59_single_headers",
    "Props.C59_counterexample_sender",
    "Props.C59_counterexample_local_id",
    "Props.C59_header_names"
   ],
   "note": "C59_counterexample_sender: sender_list is filled from the From header. C59_counterexample_local_id: the built-in function id is stored instead of the argument local_id."
  },
  {
   "property": "C60",
   "status": "proved",
   "theorems": [
    "Props.C60_plain_indent",
    "Props.C60_indent_number",
    "Props.C60_other_rend",
    "Props.C60_not_a_number",
    "Props.C60_counterexample_no_rend"
   ],
   "note": "A line without rend raises AttributeError (C60_counterexample_no_rend)."
  },
  {
   "property": "C61",
   "status": "proved",
   "theorems": [
    "Props.C61_subseries",
    "Props.C61_series",
    "Props.C61_only_first_counts"
   ],
   "note": "Assumes an engine that evaluates unions of paths to the selected elements in document order (EngineUnionOk; refEngineU is one)."
  },
  {
   "property": "C62",
   "status": "proved",
   "theorems": [
    "Props.C62_without_date",
    "Props.C62_with_date",
    "Props.C62_text",
    "Props.C62_counterexample_tail"
   ],
   "note": "Text that follows the unit date is lost and a second unit date stays (C62_counterexample_tail)."
  },
  {
   "property": "C63",
   "status": "proved",
   "theorems": [
    "Props.C63_date",
    "Props.C63_typed_note",
    "Props.C63_title_info",
    "Props.C63_part_detail",
    "Props.C63_part_extent",
    "Props.C63_part",
    "Props.C63_origin_info",
    "Props.C63_counterexample_captured",
    "Props.C63_counterexample_comment",
    "Props.C63_counterexample_label"
   ],
   "note": "Against their documentation, OriginInfo ignores captured, valid, modified, copyright and other dates (C63_counterexample_captured), a date behind a comment counts as empty (C63_counterexample_comment), a title with only a label counts as empty (C63_counterexample_label)."
  },
  {
   "property": "C64",
   "status": "proved",
   "theorems": [
    "Props.C64_default_version",
    "Props.C64_given_version",
    "Props.C64_only_version",
    "Props.C64_counterexample_overwritten"
   ],
   "note": "Loading an existing document overwrites its version with 2.1 (C64_counterexample_overwritten)."
  },
  {
   "property": "C65",
   "status": "proved",
   "theorems": [
    "Props.C65_schema_of_class",
    "Props.C65_counterexample_two_bases"
   ],
   "note": "With several bases only the last one is looked at: C65_counterexample_two_bases."
  },
  {
   "property": "C66",
   "status": "proved",
   "theorems": [
    "Props.C66_self_reference",
    "Props.C66_wrong_name",
    "Props.C66_accepted"
   ],
   "note": "Self-referential node fields"
  },
  {
   "property": "C67",
   "status": "proved",
   "theorems": [
    "Props.C67_strings_in_document_order"
   ],
   "note": "List fields read matches in document order"
  },
  {
   "property": "C68",
   "status": "proved",
   "theorems": [
    "Props.C68_nested",
    "Props.C68_limit_irrelevant",
    "Props.C68_counterexample_recursive"
   ],
   "note": "Recursive models: C68_counterexample_recursive."
  },
  {
   "property": "C69",
   "status": "proved",
   "theorems": [
    "Props.C69_record",
    "Props.C69_last_assignment",
    "Props.C69_new_element",
    "Props.C69_tidy_check",
    "Props.C69_apart_names",
    "Props.C69_apart_predicates",
    "Props.C69_keeps_string",
    "Props.C69_keeps_integer",
    "Props.C69_keeps_boolean",
    "Props.C69_keeps_datetime",
    "Props.C69_keeps_date",
    "Props.C69_counterexample_prefix",
    "Props.C69_counterexample_overlap",
    "Props.C69_counterexample_repeated"
   ],
   "note": "Excluded, with counterexamples: one path continuing another (a and a/@id), paths selecting the same node, repeated nodes, text() paths."
  },
  {
   "property": "C70",
   "status": "proved",
   "theorems": [
    "Props.C70_save",
    "Props.C70_reload"
   ],
   "note": "Subforms and formsets are C51, C52, C54."
  },
  {
   "property": "C71",
   "status": "proved",
   "theorems": [
    "Props.C71_text_and_attributes",
    "Props.C71_last_assignment",
    "Props.C71_counterexample_text_none",
    "Props.C71_counterexample_role"
   ],
   "note": "C71_counterexample_role shows that text and attributes of a child element (mods.Role) are not independent."
  },
  {
   "property": "C72",
   "status": "proved",
   "theorems": [
    "Props.C72_interfering_pairs",
    "Props.C72_bundled_records",
    "Props.C72_new_object",
    "Props.C72_bundled_leaves",
    "Props.C72_keeps_string",
    "Props.C72_keeps_integer",
    "Props.C72_keeps_boolean",
    "Props.C72_counterexample_message_id",
    "Props.C72_counterexample_author"
   ],
   "note": "The field tables (Verif/Domain/Bundled.lean) are generated from the sources by tools/bundled.py. Not covered: fields for the element itself ('.', local-name(.)), count(...), './tei:body/tei:head', 'tei:head[1]', node and list fields. C72_counterexample_* show that listed pairs do interfere."
  },
  {
   "property": "C73",
   "status": "proved",
   "theorems": [
    "Props.C73_constructor",
    "Props.C73_order",
    "Props.C73_bundled",
    "Props.C73_counterexample_bad_value"
   ],
   "note": "Keywords that are not fields only set Python attributes and are left out. C73_counterexample_bad_value: a refused value raises."
  },
  {
   "property": "C74",
   "status": "proved",
   "theorems": [
    "Props.C74_mixed_history",
    "Props.C74_shows",
    "Props.C74_new_element"
   ],
   "note": "List fields of more than one step and with predicates on elements, and lists that share the path of a single-value field (see C75), are outside. C74_shows: every tidy element shows some state, C74_new_element: a new element is tidy."
  },
  {
   "property": "C75",
   "status": "proved",
   "theorems": [
    "Props.C75_refused",
    "Props.C75_value_error",
    "Props.C75_simple",
    "Props.C75_list"
   ],
   "note": "C75_refused and C75_value_error are for arbitrary XPaths and engines; C75_simple instantiates them for simple paths; C75_list is for list items. That lxml refuses exactly these characters is part of the model of lxml (Xml.xmlChar)."
  },
  {
   "property": "C76",
   "status": "proved",
   "theorems": [
    "Props.C76_first_item",
    "Props.C76_empty",
    "Props.C76_set_is_item_zero",
    "Props.C76_delete_is_item_zero",
    "Props.C76_shared_history"
   ],
   "note": "Histories: one child step with attribute predicates; string (not normalised) and integer kinds."
  },
  {
   "property": "C77",
   "status": "proved",
   "theorems": [
    "Props.C77_history",
    "Props.C77_bundled",
    "Props.C77_new_object",
    "Props.C77_dublin_core"
   ],
   "note": "The tables of fields are generated from the source (tools/bundled.py). 23 interfering pairs of a single-value and a list field are listed in the model; 13 list fields whose XPath is not one named child step are left out."
  },
  {
   "property": "C78",
   "status": "proved",
   "theorems": [
    "Props.C78_undisturbed",
    "Props.C78_locked_state",
    "Props.C78_locked",
    "Props.C78_keeps",
    "Props.C78_counterexample_swapped"
   ],
   "note": "On-demand lexer with peek modelled (Verif/XPath/OnDemand.lean) and proved equal to the token stream of the sequential model (lex_token). Setting the input and taking a token are atomic steps. C78_counterexample_swapped: overlapping calls."
  },
  {
   "property": "C79",
   "status": "proved",
   "theorems": [
    "Props.C79_first_bad_token",
    "Props.C79_incomplete",
    "Props.C79_lexical",
    "Props.C79_outcomes"
   ],
   "note": "The token in the message is the one recorded in the lexer state by the model."
  },
  {
   "property": "C80",
   "status": "proved",
   "theorems": [
    "Props.C80_datetime_format",
    "Props.C80_datetime_unreadable",
    "Props.C80_complete",
    "Props.C80_date_format",
    "Props.C80_only_real",
    "Props.C80_normalized",
    "Props.C80_reads",
    "Props.C80_counterexample_zone",
    "Props.C80_counterexample_short",
    "Props.C80_counterexample_two_digits",
    "Props.C80_counterexample_twice"
   ],
   "note": "C80_counterexample_zone/_short/_two_digits: formats outside of the stated domain that cannot read what they write. strptime is modelled with its leftmost-longest backtracking over numeric directives; month names, %p, %I, %j, %z are not modelled. Real dates are defined in Spec/Calendar independently of the model's validity check."
  },
  {
   "property": "C81",
   "status": "proved",
   "theorems": [
    "Props.C81_integer",
    "Props.C81_datetime",
    "Props.C81_date",
    "Props.C81_datetime_format",
    "Props.C81_date_format",
    "Props.C81_boolean"
   ],
   "note": "The texts are specified in Spec/Texts independently of the model's printers. Years below 1000 are outside of the stated domain for strftime, whose padding depends on the C library."
  },
  {
   "property": "C82",
   "status": "proved",
   "theorems": [
    "Props.C82_float_round_trip",
    "Props.C82_reads",
    "Props.C82_counterexample_number"
   ],
   "note": "C82_counterexample_number: FloatMapper lacks the case for numbers that IntegerMapper has. float(), str() and number() are parameters. The example instance uses integers."
  },
  {
   "property": "C83",
   "status": "proved",
   "theorems": [
    "Props.C83_list_refinement",
    "Props.C83_frame",
    "Props.C83_assign",
    "Props.C83_delete",
    "Props.C83_append_position",
    "Props.C83_errors_change_nothing",
    "Props.C83_counterexample_insert"
   ],
   "note": "C83_counterexample_insert: insertion in front of the end overwrites an item (fields.py:304-310 drops insert_index for multi-step XPaths). C28_counterexample_two_steps: with two parents append is not at the end."
  },
  {
   "property": "C84",
   "status": "proved",
   "theorems": [
    "Props.C84_reads",
    "Props.C84_nested_record",
    "Props.C84_others",
    "Props.C84_object",
    "Props.C84_new_element",
    "Props.C84_instantiate",
    "Props.C84_declared"
   ],
   "note": "Objects are read anew for each operation (obj.x.y.…), as a chain of attribute accesses; a variable kept across the removal of its element is not in the model. NodeField paths are child steps with attribute predicates. Assigning an object to a NodeField is C22."
  },
  {
   "property": "C85",
   "status": "proved",
   "theorems": [
    "Props.C85_save",
    "Props.C85_unbound",
    "Props.C85_valid",
    "Props.C85_invalid",
    "Props.C85_reads",
    "Props.C85_refilled",
    "Props.C85_replaced"
   ],
   "note": "Forms have no formsets (C51, C52); Meta.fields and Meta.exclude are lists of names without dots (with dotted names see C49_counterexample_subform); Django's cleaning is a parameter. The object of a subform is the one that its NodeField reads, while its element is in the document. That a subform without data leaves no element is proved for NodeFields of one step without predicates: with more steps or predicates the new element has attributes or a parent that stays, as in the code."
  },
  {
   "property": "C86",
   "status": "proved",
   "theorems": [
    "Props.C86_names",
    "Props.C86_prefixed",
    "Props.C86_distinct",
    "Props.C86_received"
   ],
   "note": "Django's add_prefix of forms and formsets is modelled as documented; C50 (initial data has the keys of these inputs) is separate."
  },
  {
   "property": "C87",
   "status": "proved",
   "theorems": [
    "Props.C87_page",
    "Props.C87_inputs",
    "Props.C87_when",
    "Props.C87_counterexample_empty_formset",
    "Props.C87_counterexample_no_label",
    "Props.C87_balanced"
   ],
   "note": "C87_counterexample_empty_formset: a formset without any form makes the output raise IndexError (forms[0] is looked at for a label); C87_counterexample_no_label: so does a subform with form_label = None in a section (AttributeError). Django's HTML of fields is a parameter."
  },
  {
   "property": "C88",
   "status": "proved",
   "theorems": [
    "Props.C88_unordered",
    "Props.C88_ordered",
    "Props.C88_list_shows",
    "Props.C88_twice",
    "Props.C88_twice_ordered",
    "Props.C88_counterexample_stale",
    "Props.C88_counterexample_alike",
    "Props.C88_counterexample_twice",
    "Props.C88_counterexample_equal"
   ],
   "note": "Model Forms/FormsetDoc.lean; refinement of the abstract formset of C52 (sim_formset). Second update also for ordered formsets: C88_twice_ordered. Refuted without the conditions: C88_counterexample_stale (an element added since the form was displayed is overwritten), _alike (two equal new elements of an ordered formset become one), _twice (data loss at the second update), _equal (order changes). Valid formsets only; forms update their elements by arbitrary functions."
  },
  {
   "property": "C89",
   "status": "proved",
   "theorems": [
    "Props.C89_unordered",
    "Props.C89_ordered",
    "Props.C89_updates",
    "Props.C89_counterexample_predicate"
   ],
   "note": "Model Forms/FormsetForms.lean. Refuted for a list XPath with an attribute predicate that the new object does not meet: C89_counterexample_predicate (the new element is added to the document, but it is not a member of the list). The forms in the formset have no subforms (for these see C119)."
  },
  {
   "property": "C90",
   "status": "proved",
   "theorems": [
    "Props.C90_save",
    "Props.C90_valid",
    "Props.C90_invalid"
   ],
   "note": "Model Forms/Whole.lean, specification Spec/Whole.lean. Formsets belong to the root form; the members of a list keep their identity while the rest of the document changes (by number). The conditions for lists are those of C88, with its counterexamples."
  },
  {
   "property": "C91",
   "status": "proved",
   "theorems": [
    "Props.C91_factory",
    "Props.C91_statement",
    "Props.C91_same_parts",
    "Props.C91_formsets",
    "Props.C91_counterexample_factory_delete",
    "Props.C91_counterexample_plain_form",
    "Props.C91_counterexample_subformfield"
   ],
   "note": "Model Forms/Options.lean, which refines Forms/FormClass.lean (C91_same_parts). Refuted for the default arguments: C91_counterexample_factory_delete (can_delete and can_order of the given form class are lost, as their defaults are not None); can_delete and can_order of a SubformField have no effect: C91_counterexample_subformfield. Attribute lookup on base classes in order, which is Python's order unless a class is inherited on several ways."
  },
  {
   "property": "C92",
   "status": "proved",
   "theorems": [
    "Props.C92_fields",
    "Props.C92_subforms",
    "Props.C92_subform_labels",
    "Props.C92_formsets",
    "Props.C92_label",
    "Props.C92_label_again",
    "Props.C92_counterexample_declared_label",
    "Props.C92_counterexample_formset_label",
    "Props.C92_counterexample_heading"
   ],
   "note": "Refutes what comments in the code say: a label declared with a SubformField does not supersede that of the form class (C92_counterexample_declared_label) and is never used for formsets (C92_counterexample_formset_label); given labels are recapitalised in headings of sections (C92_counterexample_heading). Letters and white space as in ASCII."
  },
  {
   "property": "C93",
   "status": "proved",
   "theorems": [
    "Props.C93_subform_classes",
    "Props.C93_declared",
    "Props.C93_subclass",
    "Props.C93_counterexample_bases",
    "Props.C93_counterexample_subforms"
   ],
   "note": "Refuted: that the first base class counts, as everywhere else in Python (C93_counterexample_bases), and that declared subforms are inherited (C93_counterexample_subforms)."
  },
  {
   "property": "C94",
   "status": "proved",
   "theorems": [
    "Props.C94_cycle",
    "Props.C94_invalid",
    "Props.C94_unchanged",
    "Props.C94_counterexample_unset_boolean",
    "Props.C94_counterexample_choice",
    "Props.C94_counterexample_white_space",
    "Props.C94_counterexample_no_date",
    "Props.C94_counterexample_flag_of_nothing"
   ],
   "note": "Model Forms/Submit.lean on top of Forms/Tree.lean; specification Spec/Submit.lean. Default widgets, no formsets (C90), form fields for fields of the class. Refuted beyond the stated domain: C94_counterexample_unset_boolean (None becomes False), _choice (an unlisted value is silently replaced by the first choice), _white_space, _no_date (an unset optional DateField makes is_valid raise AttributeError), _flag_of_nothing (a flag creates the element of a blank subform)."
  },
  {
   "property": "C95",
   "status": "proved",
   "theorems": [
    "Props.C95_loop",
    "Props.C95_remove_each",
    "Props.C95_append_each",
    "Props.C95_extend_self",
    "Props.C95_loop_assigning",
    "Props.C95_replace_each"
   ],
   "note": "Model XmlMap/Iterate.lean, specification Spec/Iterate.lean. Values of pending matches are taken at loop start for bodies without index assignment; for assigning bodies, index-wise reading, text kinds only."
  },
  {
   "property": "C96",
   "status": "proved",
   "theorems": [
    "Props.C96_assign_texts",
    "Props.C96_assign_elements",
    "Props.C96_extend_elements",
    "Props.C96_counterexample_live_elements",
    "Props.C96_self_texts",
    "Props.C96_self_elements"
   ],
   "note": "Model XmlMap/ListBetween.lean (two documents; an element is at one place only, as in lxml). C96_counterexample_live_elements: assigning a live list of elements, in general."
  },
  {
   "property": "C97",
   "status": "proved",
   "theorems": [
    "Props.C97_read",
    "Props.C97_write",
    "Props.C97_refused",
    "Props.C97_delete",
    "Props.C97_assign_object",
    "Props.C97_history",
    "Props.C97_str",
    "Props.C97_str_text",
    "Props.C97_counterexample_reference",
    "Props.C97_str_pair",
    "Props.C97_str_hash",
    "Props.C97_repr_field",
    "Props.C97_repr_account",
    "Props.C97_str_date",
    "Props.C97_counterexample_delete",
    "Props.C97_counterexample_assign_itself",
    "Props.C97_counterexample_date",
    "Props.C97_counterexample_hash"
   ],
   "note": "Model Core/ObjText.lean; engine assumption SelfOk: '.' is the context node. Counterexamples: C97_counterexample_delete, _assign_itself, _reference, _hash, _date."
  },
  {
   "property": "C98",
   "status": "proved",
   "theorems": [
    "Props.C98_transform",
    "Props.C98_compiled_agrees",
    "Props.C98_compiled_first",
    "Props.C98_bad_parameter",
    "Props.C98_counterexample_no_stylesheet",
    "Props.C98_counterexample_tail",
    "Props.C98_counterexample_unused_file"
   ],
   "note": "Model Core/Transform.lean; parser, serialiser and XSLT processor are parameters with assumption XsltEnvOk (an element is parsed again from its serialisation; other text behind it makes it no document). Counterexamples: C98_counterexample_tail, _unused_file, _no_stylesheet."
  },
  {
   "property": "C99",
   "status": "proved",
   "theorems": [
    "Props.C99_vocabulary",
    "Props.C99_one_download",
    "Props.C99_counterexample_failed_download",
    "Props.C99_counterexample_broken_graph"
   ],
   "note": "Model Domain/DcmiTypes.lean; rdflib's store and label() are parameters. Counterexamples: C99_counterexample_failed_download, C99_counterexample_broken_graph."
  },
  {
   "property": "C100",
   "status": "proved",
   "theorems": [
    "Props.C100_read",
    "Props.C100_operations",
    "Props.C100_list_refinement",
    "Props.C100_results",
    "Props.C100_append_position",
    "Props.C100_errors_change_nothing",
    "Props.C100_assign",
    "Props.C100_assign_longer",
    "Props.C100_delete",
    "Props.C100_counterexample_append",
    "Props.C100_counterexample_assign"
   ],
   "note": "The reference machine is Spec.groupOp on the items of each parent; without additions it is the Python list of all items (C100_list_refinement). Counterexamples: C100_counterexample_append, C100_counterexample_assign. Insertion in front of the end is excluded (C83_counterexample_insert)."
  },
  {
   "property": "C101",
   "status": "proved",
   "theorems": [
    "Props.C101_strings",
    "Props.C101_integers",
    "Props.C101_shown_strings",
    "Props.C101_shown_integers",
    "Props.C101_edited_strings",
    "Props.C101_number",
    "Props.C101_untouched_strings",
    "Props.C101_edited_integers",
    "Props.C101_untouched_integers",
    "Props.C101_counterexample_too_many",
    "Props.C101_counterexample_white_space",
    "Props.C101_counterexample_zero"
   ],
   "note": "C101_strings / C101_integers: any data; C101_shown_*: the page; C101_edited_* / C101_untouched_*: the way through the browser. Counterexamples: zeros and members that are no numbers are lost though nobody touched them, strings lose line breaks and surrounding white space, lists longer than Django's absolute_max cannot be saved."
  },
  {
   "property": "C102",
   "status": "proved",
   "theorems": [
    "Props.C102_shown",
    "Props.C102_saved",
    "Props.C102_ordered",
    "Props.C102_counts",
    "Props.C102_sent",
    "Props.C102_number",
    "Props.C102_untouched",
    "Props.C102_untouched_ordered",
    "Props.C102_counterexample_choice",
    "Props.C102_counterexample_schema"
   ],
   "note": "C102_saved/C102_ordered need that no element of a form marked for deletion is like another member (as C88, C89), and with order that all saved elements are different. C102_counterexample_choice: with a drop-down list without empty choice an untouched page adds a new element; C102_counterexample_schema: an untouched additional form is validated against the schema, so that a set of valid members is not valid. A changed additional form marked for deletion is added nevertheless (C52)."
  },
  {
   "property": "C103",
   "status": "proved",
   "theorems": [
    "Props.C103_any_data",
    "Props.C103_saved",
    "Props.C103_invalid",
    "Props.C103_shown",
    "Props.C103_distinct",
    "Props.C103_sent",
    "Props.C103_counts",
    "Props.C103_untouched",
    "Props.C103_missing_counts"
   ],
   "note": "C103_shown, C103_distinct, C103_sent, C103_counts, C103_saved, C103_invalid, C103_untouched; C103_any_data: the data need not come from the page. Formsets of the root form only; as C90, C94, C101, C102 otherwise; missing counts are not covered, and the schema result of forms in formsets is only assumed, not concluded. Validating changes members even if the submission is invalid (example)."
  },
  {
   "property": "C104",
   "status": "proved",
   "theorems": [
    "Props.C104_as_class",
    "Props.C104_options",
    "Props.C104_override",
    "Props.C104_plain",
    "Props.C104_required",
    "Props.C104_type_error",
    "Props.C104_counterexample_parsed",
    "Props.C104_counterexample_exclude",
    "Props.C104_counterexample_widget"
   ],
   "note": "C104_as_class, C104_options, C104_override, C104_plain, C104_required, C104_type_error. The arguments max_num and extra are ignored. C104_counterexample_parsed: with an already parsed fields list exclude has no effect; C104_counterexample_exclude: an already parsed exclude list raises TypeError."
  },
  {
   "property": "C105",
   "status": "proved",
   "theorems": [
    "Props.C105_read",
    "Props.C105_ops",
    "Props.C105_assign",
    "Props.C105_assign_other",
    "Props.C105_delete",
    "Props.C105_insert_negative",
    "Props.C105_append_empty",
    "Props.C105_delete_empty",
    "Props.C105_strings",
    "Props.C105_integers",
    "Props.C105_counterexample_append",
    "Props.C105_counterexample_assign",
    "Props.C105_counterexample_predicate",
    "Props.C105_refuses_elements"
   ],
   "note": "C105_read, C105_ops, C105_assign, C105_assign_other, C105_delete, C105_append_empty, C105_delete_empty; C105_strings and C105_integers are the instances for StringListField and IntegerListField. C105_counterexample_append, C105_counterexample_assign: what a user of a list expects fails; C105_counterexample_predicate: a predicate about the listed attribute."
  },
  {
   "property": "C106",
   "status": "proved",
   "theorems": [
    "Props.C106_aware",
    "Props.C106_zone_is_lost",
    "Props.C106_counterexample_instants"
   ],
   "note": "C106_aware, C106_zone_is_lost; C106_counterexample_instants: two instants that read the same. isoformat() of CPython is modelled with its offset; formats with %z are not modelled."
  },
  {
   "property": "C107",
   "status": "proved",
   "theorems": [
    "Props.C107_history",
    "Props.C107_read",
    "Props.C107_undo",
    "Props.C107_text_lost",
    "Props.C107_text_kept"
   ],
   "note": "C107_history (effect of every history), C107_read (what fields read), C107_undo, C107_text_lost (deleting the last attribute takes the text along), C107_text_kept. Generalises C69 to paths that continue each other by one attribute step. The elements have no children; paths that continue each other by child steps are not covered."
  },
  {
   "property": "C108",
   "status": "proved",
   "theorems": [
    "Props.C108_effect",
    "Props.C108_out_of_range",
    "Props.C108_history",
    "Props.C108_blanks",
    "Props.C108_counterexample_dates"
   ],
   "note": "Completes C25, which excludes negative insertion; datetimes: C108_counterexample_dates."
  },
  {
   "property": "C109",
   "status": "proved",
   "theorems": [
    "Props.C109_history",
    "Props.C109_rearrange",
    "Props.C109_extend_self",
    "Props.C109_counterexample_swap",
    "Props.C109_counterexample_twice"
   ],
   "note": "Completes C25-C27, whose values are elements from outside of the document. Refuted for exchanges and for repeated objects: C109_counterexample_swap, C109_counterexample_twice."
  },
  {
   "property": "C110",
   "status": "proved",
   "theorems": [
    "Props.C110_only_takes_away",
    "Props.C110_does_nothing",
    "Props.C110_cleanup_stops",
    "Props.C110_list_reads",
    "Props.C110_list_takes_one",
    "Props.C110_list_clear"
   ],
   "note": "Complements C16-C19 (exact effect for simple paths); no assumption on the engine."
  },
  {
   "property": "C111",
   "status": "proved",
   "theorems": [
    "Props.C111_local",
    "Props.C111_lists",
    "Props.C111_outside",
    "Props.C111_histories",
    "Props.C111_paths",
    "Props.C111_paths_inside",
    "Props.C111_counterexample_upwards",
    "Props.C111_counterexample_itself"
   ],
   "note": "C111_local, C111_lists for any engine with the stated locality; C111_paths, C111_paths_inside show it for the path fragment; C111_histories, C111_outside. C111_counterexample_upwards and C111_counterexample_itself show both conditions are needed. Paths in parentheses behind a slash excluded (XPath 1.0 has none)."
  },
  {
   "property": "C112",
   "status": "proved",
   "theorems": [
    "Props.C112_history",
    "Props.C112_counterexample_unfit"
   ],
   "note": "C112_history, on the model of C109 and the locality of C111; C112_counterexample_unfit for edits that break the fit. One child step, insertion index at least 0, remove/index/count by equality not included."
  },
  {
   "property": "C113",
   "status": "proved",
   "theorems": [
    "Props.C113_assign",
    "Props.C113_delete",
    "Props.C113_not_finite",
    "Props.C113_instantiate"
   ],
   "note": "C113_assign, C113_delete, C113_instantiate, C113_not_finite. The silent ignoring of assignments is what the code does; reading such fields is C35."
  },
  {
   "property": "C114",
   "status": "proved",
   "theorems": [
    "Props.C114_history",
    "Props.C114_one_parent",
    "Props.C114_no_parent"
   ],
   "note": "C114_history for any number of parents (at least one), C114_one_parent for the list itself, C114_no_parent. This is a defect of the library stated as what it does; C83 and C100 cover the sequences without such insertions. Kinds that cannot read a blank element (dates) are left out: the field is unreadable afterwards, as in C108_counterexample_dates."
  },
  {
   "property": "C115",
   "status": "proved",
   "theorems": [
    "Props.C115_bundled_cells",
    "Props.C115_new_object",
    "Props.C115_message_id_lost"
   ],
   "note": "C115_bundled_cells (all classes checked by the kernel against the table `attached`), C115_new_object; C115_message_id_lost states a consequence: on a CERP message without id, message_id = t; message_id_supplied = True; message_id_supplied = False leaves no message id. C72 covers the choices without shared elements as plain records."
  },
  {
   "property": "C116",
   "status": "proved",
   "theorems": [
    "Props.C116_assignment",
    "Props.C116_no_value",
    "Props.C116_found",
    "Props.C116_create",
    "Props.C116_item",
    "Props.C116_append",
    "Props.C116_nothing_lost",
    "Props.C116_tags"
   ],
   "note": "C116_assignment, C116_found, C116_no_value, C116_create, C116_item, C116_append, C116_nothing_lost (sequences, exceptions caught), C116_tags (a plain consequence). No engine assumption. Assigning None (C110 says it only takes away), objects (C22) and whole lists (which can remove surplus items) are not among the statements (C121 covers whole programs with them)."
  },
  {
   "property": "C117",
   "status": "proved",
   "theorems": [
    "Props.C117_bundled_path",
    "Props.C117_bundled",
    "Props.C117_bundled_refuse",
    "Props.C117_read",
    "Props.C117_operations",
    "Props.C117_list_refinement",
    "Props.C117_adding_is_refused",
    "Props.C117_errors_change_nothing",
    "Props.C117_assign",
    "Props.C117_assign_longer",
    "Props.C117_delete",
    "Props.C117_single_read",
    "Props.C117_single_write",
    "Props.C117_single_refused",
    "Props.C117_storable_last",
    "Props.C117_counterexample_nested"
   ],
   "note": "Assumes of the engine that such a path selects, in document order, the elements whose way from the object's element (names and attributes) is in the language of the path (SearchOk). Adding items through paths that end in a plain step is C25, C83, C100, C114. C117_counterexample_nested shows that the list is no list if members are nested."
  },
  {
   "property": "C118",
   "status": "proved",
   "theorems": [
    "Props.C118_read",
    "Props.C118_ops",
    "Props.C118_assign",
    "Props.C118_assign_other",
    "Props.C118_delete",
    "Props.C118_insert_negative",
    "Props.C118_append_empty",
    "Props.C118_delete_empty",
    "Props.C118_strings",
    "Props.C118_integers",
    "Props.C118_counterexample_tail",
    "Props.C118_counterexample_append"
   ],
   "note": "Engine assumption EngineOk. With text behind a child the claim is false: C118_counterexample_tail (setting that item overwrites the text of the child element). C118_counterexample_append: unlike a list of elements the list cannot grow."
  },
  {
   "property": "C119",
   "status": "proved",
   "theorems": [
    "Props.C119_unordered",
    "Props.C119_ordered",
    "Props.C119_counterexample_subform_only",
    "Props.C119_counterexample_opened"
   ],
   "note": "Engine assumption EngineOk. Stated for valid forms without a schema. Apart is stated for the members as they are after the forms have been made (openMembers). C119_counterexample_subform_only: an additional form with data only for its subform counts as unchanged (Django's has_changed), and the data are lost. C119_counterexample_opened: making the formset already adds the elements of the subforms to the members. A subform with a formset of its own is not covered."
  },
  {
   "property": "C120",
   "status": "proved",
   "theorems": [
    "Props.C120_assign",
    "Props.C120_item",
    "Props.C120_reads",
    "Props.C120_reads_integer",
    "Props.C120_exceptions",
    "Props.C120_counterexample_absolute"
   ],
   "note": "C120_assign, C120_item (complete case distinction), C120_exceptions, C120_reads, C120_reads_integer. Only assumption about the engine: FitsStep (a path ending in a name selects elements or attributes of this name, one ending in text() selects texts). C120_counterexample_absolute: an attribute selected by //a/@b cannot be assigned (AttributeError). The excluded cases: C118_counterexample_tail, C12_counterexample_attribute_named_text."
  },
  {
   "property": "C121",
   "status": "proved",
   "theorems": [
    "Props.C121_no_foreigners",
    "Props.C121_foreigners_stay"
   ],
   "note": "Assigning XmlObjects (which moves whole elements, see C22, C109) is not among the statements. The content of a comment can be overwritten if an XPath selects it."
  },
  {
   "property": "C122",
   "status": "proved",
   "theorems": [
    "Props.C122_provenance"
   ],
   "note": "An attribute with a prefix the class does not know gets the namespace 'None' (then a TypeError is raised); the specification says so. Comments are told apart only by being comments, processing instructions by their targets."
  },
  {
   "property": "C123",
   "status": "proved",
   "theorems": [
    "Props.C123_del",
    "Props.C123_pop",
    "Props.C123_remove",
    "Props.C123_del_works",
    "Props.C123_del_outside",
    "Props.C123_pop_works",
    "Props.C123_pop_outside",
    "Props.C123_pop_last",
    "Props.C123_remove_works"
   ],
   "note": "Strengthens C110 (at most one element) for lists. Selected attributes and texts, and the root, raise (TypeError, AttributeError) and are covered by the first alternative. Comments and processing instructions are elements here, as in lxml."
  },
  {
   "property": "C124",
   "status": "proved",
   "theorems": [
    "Props.C124_assign",
    "Props.C124_create",
    "Props.C124_read",
    "Props.C124_blameless",
    "Props.C124_delete",
    "Props.C124_list",
    "Props.C124_list_assign",
    "Props.C124_list_clear",
    "Props.C124_object",
    "Props.C124_object_list"
   ],
   "note": "NameError is Python's UnboundLocalError. The theorems bound the exceptions; when the statements succeed is said by C12-C36, C120 and C123. Examples beside them show that each exception happens for its reason."
  },
  {
   "property": "C125",
   "status": "proved",
   "theorems": [
    "Props.C125_same",
    "Props.C125_twice",
    "Props.C125_last",
    "Props.C125_item",
    "Props.C125_list",
    "Props.C125_item_works",
    "Props.C125_list_works"
   ],
   "note": "Generalizes C23 (simple XPaths). As in C120, texts behind a child and attributes called text are left out (the code writes elsewhere), and the engine is assumed to select what the last step says. An element that has no text at all and is assigned the empty text is outside (its serialization can change from <a/> to <a></a>)."
  },
  {
   "property": "C126",
   "status": "proved",
   "theorems": [
    "Props.C126_reading",
    "Props.C126_taking",
    "Props.C126_negative",
    "Props.C126_outside",
    "Props.C126_append",
    "Props.C126_extend"
   ],
   "note": "Extends C25 (one simple XPath, whole programs) to any XPath, one operation at a time. That the list reads d without the taken item afterwards depends on the XPath (a predicate such as [1] can select another item) and is not claimed; for simple XPaths it is C25/C26. A Python list would clamp insert(i) behind its end, and this code raises (stated in the theorem)."
  },
  {
   "property": "C127",
   "status": "proved",
   "theorems": [
    "Props.C127_alone",
    "Props.C127_elsewhere",
    "Props.C127_order",
    "Props.C127_finished",
    "Props.C127_unused",
    "Props.C127_items",
    "Props.C127_counterexample_same"
   ],
   "note": "C127_alone, C127_elsewhere, C127_order, C127_finished, C127_items for statements that are local in the sense of C111 (which proves it for the fields, with C127_unused for create_<field>). Statements are atomic: threads inside of a statement (and inside lxml) are not modelled. C127_counterexample_same shows that the elements must be separate."
  },
  {
   "property": "C128",
   "status": "proved",
   "theorems": [
    "Props.C128_commute",
    "Props.C128_counterexample_created"
   ],
   "note": "C128_commute, from C120 and C125. Unlike C127, the objects and nodes can be inside of each other (the element's attributes and the texts of its descendants, for example), and the XPaths may look anywhere, but only assignments of texts to existing nodes are covered. C128_counterexample_created for nodes that do not exist yet. The excluded cases of C120 (texts behind a child, attributes called text) are excluded."
  },
  {
   "property": "C129",
   "status": "proved",
   "theorems": [
    "Props.C129_refused_text",
    "Props.C129_item",
    "Props.C129_stops",
    "Props.C129_inside",
    "Props.C129_behind",
    "Props.C129_extend"
   ],
   "note": "C129_refused_text, C129_item, C129_stops (any XPath); C129_inside, C129_behind, C129_extend (one child step, kinds and documents as in C25). List assignments are not atomic, and append is not: a new item that has been created stays when its value is refused (as C75 says for fields)."
  },
  {
   "property": "C130",
   "status": "proved",
   "theorems": [
    "Props.C130_determined",
    "Props.C130_ends",
    "Props.C130_assign",
    "Props.C130_length",
    "Props.C130_empty"
   ],
   "note": "Spec.While is Python's loop without a limit on the rounds; C130_determined: a loop has one result; C130_ends: the trimming loop ends, within as many rounds as the document has nodes, and the model's program gives its result; C130_assign: an assignment that succeeds is the assignments of the values followed by this loop; C130_length, C130_empty: the list afterwards. The example is the list a[1]. The XPath engine is any function of the document that ends."
  },
  {
   "property": "C131",
   "status": "proved",
   "theorems": [
    "Props.C131_history",
    "Props.C131_emptied",
    "Props.C131_same",
    "Props.C131_del_is_assign_nil",
    "Props.C131_counterexample_position"
   ],
   "note": "C131_history: sequences of operations, assignments and deletions; C131_emptied: the document afterwards; C131_same, C131_del_is_assign_nil. False for other XPaths: C131_counterexample_position (with a[1], del takes out one element, assigning [] all of them)."
  },
  {
   "property": "C132",
   "status": "proved",
   "theorems": [
    "Props.C132_item",
    "Props.C132_self",
    "Props.C132_prefix",
    "Props.C132_copy",
    "Props.C132_more",
    "Props.C132_self_values"
   ],
   "note": "Completes C24 (single fields), C96 (obj.list = obj.list with child steps), C125 (lists of values given as Python lists) and C109 (other orders, child steps). Elements: what the XPath selects is an element with a parent, for which the mapper makes an object. C132_self, C132_copy, C132_item, C132_prefix (in terms of Trims, see C130), C132_more, C132_self_values. In the model the object for an element is the element's place in the document (ElemVal.own)."
  },
  {
   "property": "C133",
   "status": "proved",
   "theorems": [
    "Props.C133_nodes",
    "Props.C133_clear",
    "Props.C133_trim"
   ],
   "note": "TakenMany is the chain of items that are taken out, in terms of Selects, Yields and TakenOut (see C123). C133_clear (the values of the items of del are those at the start, see listDeleteAll), C133_trim (Trims: see C130), C133_nodes. three_rounds: the list a[1] of one item, for which assigning [] makes three rounds."
  }
 ]
}