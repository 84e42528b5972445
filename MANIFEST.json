{
 "claims": [
  {
   "property": "C01",
   "status": "proved",
   "theorems": [
    "Verif.Props.c01_parse_str_accepts_exactly_the_grammar",
    "Verif.Props.c01_tree_unique",
    "Verif.Props.c01_rejects_everything_else"
   ],
   "note": ""
  },
  {
   "property": "C02",
   "status": "proved",
   "theorems": [
    "Verif.Props.c02_no_bug",
    "Verif.Props.c02_appended_text_is_never_ignored",
    "Verif.Props.c02_from_str_no_bug",
    "Verif.Props.c02_from_str_appended_text_is_never_ignored"
   ],
   "note": ""
  },
  {
   "property": "C03",
   "status": "proved",
   "theorems": [
    "Verif.Props.c03_parse_str_terminates",
    "Verif.Props.c03_expression_parse_terminates",
    "Verif.Props.c03_expression_fuel",
    "Verif.Props.c03_from_str_terminates"
   ],
   "note": ""
  },
  {
   "property": "C04",
   "status": "proved",
   "theorems": [
    "Verif.Props.c04_panics_exactly_on_bad_heredocs",
    "Verif.Props.c04_expression_panics_exactly_on_bad_heredocs",
    "Verif.Props.c04_returns_otherwise",
    "Verif.Props.c04_no_panic_without_indented_heredoc",
    "Verif.Props.c04_expression_no_panic",
    "Verif.Props.c04_panic_witness",
    "Verif.Props.c04_from_str_panics_only_on_bad_indented_heredoc",
    "Verif.Props.c04_from_str_panics_exactly_on_bad_heredocs",
    "Verif.Props.c04_from_str_unimplemented_merge_panics_exactly"
   ],
   "note": "'Never panics' is false of this code; proved instead: the exact set of panicking texts for parse_str, Expression::parse and the legacy from_str (c04_*_exactly*), each with a witness."
  },
  {
   "property": "C05",
   "status": "proved",
   "theorems": [
    "Verif.Props.c05_unescape_inverts_escape",
    "Verif.Props.c05_in_document",
    "Verif.Props.c05_quoted_string_value",
    "Verif.Props.c05_simple_escape",
    "Verif.Props.c05_numeric_escape"
   ],
   "note": ""
  },
  {
   "property": "C06",
   "status": "proved",
   "theorems": [
    "Verif.Props.c06_from_str_bad_escape_rejects",
    "Verif.Props.c06_lone_backslash",
    "Verif.Props.c06_bad_escape_rejects_document",
    "Verif.Props.c06_bad_escape_rejects_expression",
    "Verif.Props.c06_unknown_letter",
    "Verif.Props.c06_not_a_scalar_value",
    "Verif.Props.c06_missing_digits"
   ],
   "note": ""
  },
  {
   "property": "C07",
   "status": "proved",
   "theorems": [
    "Verif.Props.c07_from_str_multiline_rejected",
    "Verif.Props.c07_string_literal_is_single_line",
    "Verif.Props.c07_string_literal_accepts_single_line",
    "Verif.Props.c07_quoted_string_keeps_line_ends",
    "Verif.Props.c07_multiline_label_rejected"
   ],
   "note": ""
  },
  {
   "property": "C08",
   "status": "proved",
   "theorems": [
    "Verif.Props.c08_heredoc_verbatim",
    "Verif.Props.c08_heredoc_empty",
    "Verif.Props.c08_heredoc_first_terminator"
   ],
   "note": ""
  },
  {
   "property": "C09",
   "status": "proved",
   "theorems": [
    "Verif.Props.c09_indented_heredoc_strips",
    "Verif.Props.c09_indented_heredoc_aborts"
   ],
   "note": "'Strips the indentation without exception' is false: c09_indented_heredoc_aborts. Proved: stripping when no line is bad, abort otherwise."
  },
  {
   "property": "C10",
   "status": "proved",
   "theorems": [
    "Verif.Props.c10_longest_literal",
    "Verif.Props.c10_literal_parses",
    "Verif.Props.c10_in_document",
    "Verif.Props.c10_numbers_keep_their_text",
    "Verif.Props.c10_float_iff",
    "Verif.Props.c10_unsigned_iff"
   ],
   "note": ""
  },
  {
   "property": "C11",
   "status": "proved",
   "theorems": [
    "Verif.Props.c11_conversion_exact",
    "Verif.Props.c11_never_wraps",
    "Verif.Props.c11_float_fails",
    "Verif.Props.c11_integer_literal"
   ],
   "note": "std's from_str_radix is modelled digit by digit (checked multiply/add)."
  },
  {
   "property": "C12",
   "status": "proved",
   "theorems": [
    "Verif.Props.c12_integer_equality",
    "Verif.Props.c12_not_reflexive",
    "Verif.Props.c12_float_equality",
    "Verif.Props.c12_float_sign_ignored"
   ],
   "note": "Equivalence relation is false of the code; the exact behaviour on integer literals and counterexamples are proved. f64 operations are a parameter (FloatOps)."
  },
  {
   "property": "C13",
   "status": "proved",
   "theorems": [
    "Verif.Props.c13_from_integer",
    "Verif.Props.c13_min_panics",
    "Verif.Props.c13_min_wraps"
   ],
   "note": "Signed minima excluded; their behaviour with and without overflow checks is proved for every signed type."
  },
  {
   "property": "C14",
   "status": "proved",
   "theorems": [
    "Verif.Props.c14_longest_identifier",
    "Verif.Props.c14_succeeds_iff",
    "Verif.Props.c14_otherwise_error",
    "Verif.Props.c14_names_are_identifiers"
   ],
   "note": ""
  },
  {
   "property": "C15",
   "status": "proved",
   "theorems": [
    "Verif.Props.c15_leading_layout",
    "Verif.Props.c15_layout_between",
    "Verif.Props.c15_attribute_layout",
    "Verif.Props.c15_every_layout_is_read",
    "Verif.Props.c15_layout_never_matters",
    "Verif.Props.c15_every_expression_layout_is_read",
    "Verif.Props.c15_brackets_and_layout"
   ],
   "note": "Proved in full: Spec/Laid.lean describes the texts of a tree with freely chosen layout, without maximal munch; parse_str accepts exactly these (c15_every_layout_is_read). Blanks inside quoted strings and heredocs, and in an object key that is an expression (kept as its text), are content, not layout."
  },
  {
   "property": "C16",
   "status": "proved",
   "theorems": [
    "Verif.Props.c16_concat",
    "Verif.Props.c16_lines"
   ],
   "note": ""
  },
  {
   "property": "C17",
   "status": "proved",
   "theorems": [
    "Verif.Props.c17_print_then_parse",
    "Verif.Props.c17_print_then_parse_expression",
    "Verif.Props.c17_parsed_is_printable",
    "Verif.Props.c17_reformat",
    "Verif.Props.c17_print_injective"
   ],
   "note": ""
  },
  {
   "property": "C18",
   "status": "proved",
   "theorems": [
    "Verif.Props.c18_from_slice_of_text",
    "Verif.Props.c18_from_slice_invalid",
    "Verif.Props.c18_from_reader",
    "Verif.Props.c18_from_reader_fails",
    "Verif.Props.c18_parse_slice",
    "Verif.Props.c18_parse_slice_of_text",
    "Verif.Props.c18_parse_slice_invalid",
    "Verif.Props.c18_parse_reader",
    "Verif.Props.c18_parse_reader_fails"
   ],
   "note": ""
  },
  {
   "property": "C19",
   "status": "proved",
   "theorems": [
    "Verif.Props.c19_value_as_owned",
    "Verif.Props.c19_map_as_owned",
    "Verif.Props.c19_from_str_valid",
    "Verif.Props.c19_value_idempotent",
    "Verif.Props.c19_map_idempotent",
    "Verif.Props.c19_value_everything_owned",
    "Verif.Props.c19_map_everything_owned",
    "Verif.Props.c19_reader_owned",
    "Verif.Props.c19_same_tree",
    "Verif.Props.c19_same_expression",
    "Verif.Props.c19_everything_owned",
    "Verif.Props.c19_idempotent",
    "Verif.Props.c19_equality_unchanged"
   ],
   "note": ""
  },
  {
   "property": "C20",
   "status": "proved",
   "theorems": [
    "Verif.Props.c20_expression_parse_ok",
    "Verif.Props.c20_expression_parse_remaining",
    "Verif.Props.c20_expression_parse_error"
   ],
   "note": ""
  },
  {
   "property": "C21",
   "status": "proved",
   "theorems": [
    "Verif.Props.c21_from_str_accepts_exactly_the_grammar",
    "Verif.Props.c21_entries_unique",
    "Verif.Props.c21_rejects_everything_else",
    "Verif.Props.c21_from_str_merging"
   ],
   "note": ""
  },
  {
   "property": "C22",
   "status": "proved",
   "theorems": [
    "Verif.Props.c22_nothing_merged",
    "Verif.Props.c22_concat",
    "Verif.Props.c22_attribute"
   ],
   "note": ""
  },
  {
   "property": "C23",
   "status": "proved",
   "theorems": [
    "Verif.Props.c23_map_merge_succeeds_iff",
    "Verif.Props.c23_value_merge_succeeds_iff",
    "Verif.Props.c23_map_error",
    "Verif.Props.c23_value_error",
    "Verif.Props.c23_clash_is_illegal",
    "Verif.Props.c23_block_merge_succeeds_iff"
   ],
   "note": ""
  },
  {
   "property": "C24",
   "status": "proved",
   "theorems": [
    "Verif.Props.c24_map",
    "Verif.Props.c24_value",
    "Verif.Props.c24_new_merged",
    "Verif.Props.c24_keys",
    "Verif.Props.c24_single",
    "Verif.Props.c24_objects",
    "Verif.Props.c24_block"
   ],
   "note": ""
  },
  {
   "property": "C25",
   "status": "proved",
   "theorems": [
    "Verif.Props.c25_value_idempotent",
    "Verif.Props.c25_map_idempotent",
    "Verif.Props.c25_block_idempotent",
    "Verif.Props.c25_merged_unchanged",
    "Verif.Props.c25_merged_map_unchanged"
   ],
   "note": ""
  },
  {
   "property": "C26",
   "status": "proved",
   "theorems": [
    "Verif.Props.c26_merge_leaves_nothing_unmerged",
    "Verif.Props.c26_value_merge_leaves_nothing_unmerged",
    "Verif.Props.c26_is_merged",
    "Verif.Props.c26_value_is_merged",
    "Verif.Props.c26_is_unmerged",
    "Verif.Props.c26_value_is_unmerged",
    "Verif.Props.c26_is_merged_after_merge",
    "Verif.Props.c26_null_panics"
   ],
   "note": "Totality is false (Null panics); exact answer proved in all cases without Null, and soundness of every answer."
  },
  {
   "property": "C27",
   "status": "proved",
   "theorems": [
    "Verif.Props.c27_is_empty_scalar",
    "Verif.Props.c27_len_scalar_map",
    "Verif.Props.c27_len_scalar",
    "Verif.Props.c27_merge_keeps_leaves",
    "Verif.Props.c27_value_merge_keeps_leaves",
    "Verif.Props.c27_merge_keeps_len_scalar",
    "Verif.Props.c27_merge_invents_nothing"
   ],
   "note": "Exact, including the panic on Null and the loss for repeated labels."
  },
  {
   "property": "C28",
   "status": "proved",
   "theorems": [
    "Verif.Props.c28_same_labels_overwritten",
    "Verif.Props.c28_leaf_lost",
    "Verif.Props.c28_last_block_wins"
   ],
   "note": "The documented behaviour is false; what the code does is proved for all inputs."
  },
  {
   "property": "C29",
   "status": "proved",
   "theorems": [
    "Verif.Props.c29_keys_unique",
    "Verif.Props.c29_texts_unique",
    "Verif.Props.c29_variants_clash",
    "Verif.Props.c29_from_str_keys_unique"
   ],
   "note": "Uniqueness as texts fails for mixed key kinds (c29_variants_clash)."
  },
  {
   "property": "C30",
   "status": "proved",
   "theorems": [
    "Verif.Props.c30_order_of_keys",
    "Verif.Props.c30_swap"
   ],
   "note": ""
  },
  {
   "property": "C31",
   "status": "proved",
   "theorems": [
    "Verif.Props.c31_unmerge_merge",
    "Verif.Props.c31_unmerge_entries",
    "Verif.Props.c31_block_unmerge_merge"
   ],
   "note": ""
  },
  {
   "property": "C32",
   "status": "proved",
   "theorems": [
    "Verif.Props.c32_integer",
    "Verif.Props.c32_float",
    "Verif.Props.c32_integers_in_range",
    "Verif.Props.c32_floats_are_read"
   ],
   "note": ""
  },
  {
   "property": "C33",
   "status": "proved",
   "theorems": [
    "Verif.Props.c33_panics_on_documents",
    "Verif.Props.c33_otherwise_the_parse_error"
   ],
   "note": "The expected behaviour is false; exact behaviour proved."
  },
  {
   "property": "C34",
   "status": "proved",
   "theorems": [
    "Verif.Props.c34_get",
    "Verif.Props.c34_get_single",
    "Verif.Props.c34_get_variant",
    "Verif.Props.c34_len",
    "Verif.Props.c34_extend_unmerged",
    "Verif.Props.c34_extend_merged",
    "Verif.Props.c34_borrow_keys"
   ],
   "note": ""
  },
  {
   "property": "C35",
   "status": "proved",
   "theorems": [
    "Verif.Props.c35_one_or_many",
    "Verif.Props.c35_key_value_pairs",
    "Verif.Props.c35_one_or_many_unwrap",
    "Verif.Props.c35_key_value_pairs_unwrap"
   ],
   "note": ""
  },
  {
   "property": "C36",
   "status": "proved",
   "theorems": [
    "Verif.Props.c36_accessor_ok",
    "Verif.Props.c36_accessor_error",
    "Verif.Props.c36_unwrap",
    "Verif.Props.c36_predicates",
    "Verif.Props.c36_len",
    "Verif.Props.c36_is_empty",
    "Verif.Props.c36_scalar"
   ],
   "note": ""
  },
  {
   "property": "C37",
   "status": "proved",
   "theorems": [
    "Verif.Props.c37_append",
    "Verif.Props.c37_block_body_history",
    "Verif.Props.c37_history",
    "Verif.Props.c37_extend",
    "Verif.Props.c37_extend_body"
   ],
   "note": ""
  },
  {
   "property": "C38",
   "status": "proved",
   "theorems": [
    "Verif.Props.c38_block_body",
    "Verif.Props.c38_lost_place",
    "Verif.Props.c38_not_lost",
    "Verif.Props.c38_kept",
    "Verif.Props.c38_blocks",
    "Verif.Props.c38_counterexample",
    "Verif.Props.c38_blocks_exact",
    "Verif.Props.c38_blocks_lost_place"
   ],
   "note": "Expected behaviour is false (c38_counterexample); the exact place is proved for every append history with consistently used labels."
  },
  {
   "property": "C39",
   "status": "proved",
   "theorems": [
    "Verif.Props.c39_new",
    "Verif.Props.c39_last_run_unique",
    "Verif.Props.c39_adjacent",
    "Verif.Props.c39_counterexample"
   ],
   "note": "Expected behaviour is false (c39_counterexample); exact surviving set proved."
  },
  {
   "property": "C40",
   "status": "proved",
   "theorems": [
    "Verif.Props.c40_label_lens",
    "Verif.Props.c40_blocks",
    "Verif.Props.c40_empty"
   ],
   "note": ""
  },
  {
   "property": "C41",
   "status": "proved",
   "theorems": [
    "Verif.Props.c41_label_lens_uniform",
    "Verif.Props.c41_uniform",
    "Verif.Props.c41_agrees",
    "Verif.Props.c41_counterexample_length",
    "Verif.Props.c41_counterexample_uniform"
   ],
   "note": "Expected behaviour is false; exact result proved."
  },
  {
   "property": "C42",
   "status": "proved",
   "theorems": [
    "Verif.Props.c42_block_body",
    "Verif.Props.c42_get",
    "Verif.Props.c42_append",
    "Verif.Props.c42_blocks",
    "Verif.Props.c42_blocks_get",
    "Verif.Props.c42_mixed_labels"
   ],
   "note": ""
  },
  {
   "property": "C43",
   "status": "proved",
   "theorems": [
    "Verif.Props.c43_no_empty_labels",
    "Verif.Props.c43_has_further_labels",
    "Verif.Props.c43_blocks"
   ],
   "note": ""
  },
  {
   "property": "C44",
   "status": "proved",
   "theorems": [
    "Verif.Props.c44_attributes_then_block_types",
    "Verif.Props.c44_duplicate_reported",
    "Verif.Props.c44_error_iff",
    "Verif.Props.c44_earlier_run_lost"
   ],
   "note": ""
  },
  {
   "property": "C45",
   "status": "proved",
   "theorems": [
    "Verif.Props.c45_clash_panics"
   ],
   "note": "Expected behaviour (error) is false: panic, exactly characterised."
  },
  {
   "property": "C46",
   "status": "proved",
   "theorems": [
    "Verif.Props.c46_entries",
    "Verif.Props.c46_duplicate",
    "Verif.Props.c46_expression_key",
    "Verif.Props.c46_complete"
   ],
   "note": ""
  },
  {
   "property": "C47",
   "status": "proved",
   "theorems": [
    "Verif.Props.c47_integer_visit",
    "Verif.Props.c47_u64_dead",
    "Verif.Props.c47_float_visit",
    "Verif.Props.c47_into_integer",
    "Verif.Props.c47_only_numbers"
   ],
   "note": "Literals above i64::MAX cannot be deserialized even into u64 (c47_u64_dead)."
  },
  {
   "property": "C48",
   "status": "proved",
   "theorems": [
    "Verif.Props.c48_option",
    "Verif.Props.c48_into_option",
    "Verif.Props.c48_body_not_option"
   ],
   "note": ""
  },
  {
   "property": "C49",
   "status": "proved",
   "theorems": [
    "Verif.Props.c49_tuple",
    "Verif.Props.c49_seq",
    "Verif.Props.c49_into_tuple",
    "Verif.Props.c49_into_vec",
    "Verif.Props.c49_struct_by_position"
   ],
   "note": ""
  },
  {
   "property": "C50",
   "status": "proved",
   "theorems": [
    "Verif.Props.c50_unlabelled",
    "Verif.Props.c50_seq",
    "Verif.Props.c50_labelled",
    "Verif.Props.c50_option",
    "Verif.Props.c50_into_vec",
    "Verif.Props.c50_single_into_struct_or_map",
    "Verif.Props.c50_into_option",
    "Verif.Props.c50_failures"
   ],
   "note": ""
  },
  {
   "property": "C51",
   "status": "proved",
   "theorems": [
    "Verif.Props.c51_legacy_key",
    "Verif.Props.c51_visit",
    "Verif.Props.c51_into_str",
    "Verif.Props.c51_borrowed_strings_are_slices"
   ],
   "note": ""
  },
  {
   "property": "C52",
   "status": "proved",
   "theorems": [
    "Verif.Props.c52_key_seed",
    "Verif.Props.c52_value_seed",
    "Verif.Props.c52_next_value",
    "Verif.Props.c52_end",
    "Verif.Props.c52_keys_once"
   ],
   "note": ""
  },
  {
   "property": "C53",
   "status": "proved",
   "theorems": [
    "Verif.Props.c53_nothing_written_unless_parsed",
    "Verif.Props.c53_success_iff",
    "Verif.Props.c53_failed_output",
    "Verif.Props.c53_no_panic",
    "Verif.Props.c53_exit_status",
    "Verif.Props.c53_unknown_command",
    "Verif.Props.c53_always_exits"
   ],
   "note": "Command-line parsing (clap), `{:#?}` rendering and the file system are parameters; the order of effects is what is proved."
  },
  {
   "property": "C54",
   "status": "proved",
   "theorems": [
    "Verif.Props.c54_specific_error_iff",
    "Verif.Props.c54_otherwise_generic",
    "Verif.Props.c54_incomplete_kept",
    "Verif.Props.c54_severity_and_chain_kept",
    "Verif.Props.c54_codes_round_trip",
    "Verif.Props.c54_text_and_bytes",
    "Verif.Props.c54_instances",
    "Verif.Props.c54_custom_str",
    "Verif.Props.c54_custom_bytes"
   ],
   "note": "nom error values are modelled as chains of (input, kind)."
  },
  {
   "property": "C55",
   "status": "proved",
   "theorems": [
    "Verif.Props.c55_indices_are_character_positions",
    "Verif.Props.c55_earliest_match",
    "Verif.Props.c55_no_match",
    "Verif.Props.c55_slice_earliest_match",
    "Verif.Props.c55_slice_no_match_panics"
   ],
   "note": ""
  },
  {
   "property": "C56",
   "status": "proved",
   "theorems": [
    "Verif.Props.c56_terminates",
    "Verif.Props.c56_equation",
    "Verif.Props.c56_from_str"
   ],
   "note": "Target types: (), bool, integers, f64, f32, String, &str, char, Option, Vec (also HashSet/BTreeSet, as the sequence of inserted elements), tuples, HashMap<String,T>, structs, newtypes, IgnoredAny, self-describing values (deserialize_any, as serde_json::Value or toml::Value), serde_bytes::ByteBuf, nested arbitrarily; serde's and serde_derive's visitors are transcribed (trusted)."
  },
  {
   "property": "C57",
   "status": "proved",
   "theorems": [
    "Verif.Props.c57_plain_never_panics",
    "Verif.Props.c57_plain_expression_never_panics",
    "Verif.Props.c57_from_str"
   ],
   "note": ""
  },
  {
   "property": "C58",
   "status": "proved",
   "theorems": [
    "Verif.Props.c58_struct",
    "Verif.Props.c58_struct_from_object"
   ],
   "note": ""
  },
  {
   "property": "C59",
   "status": "proved",
   "theorems": [
    "Verif.Props.c59_map",
    "Verif.Props.c59_map_succeeds_iff",
    "Verif.Props.c59_map_from_object"
   ],
   "note": ""
  },
  {
   "property": "C60",
   "status": "proved",
   "theorems": [
    "Verif.Props.c60_hash_order_irrelevant",
    "Verif.Props.c60_from_str",
    "Verif.Props.c60_order_of_entries_differs"
   ],
   "note": "Hash order is an arbitrary permutation of the entries."
  },
  {
   "property": "C61",
   "status": "proved",
   "theorems": [
    "Verif.Props.c61_bodies",
    "Verif.Props.c61_expressions",
    "Verif.Props.c61_reflexive",
    "Verif.Props.c61_symmetric",
    "Verif.Props.c61_transitive",
    "Verif.Props.c61_not_transitive"
   ],
   "note": "Numbers inside trees compare as in C12."
  },
  {
   "property": "C62",
   "status": "proved",
   "theorems": [
    "Verif.Props.c62_key_contract",
    "Verif.Props.c62_label_contract",
    "Verif.Props.c62_key_lookup",
    "Verif.Props.c62_label_lookup",
    "Verif.Props.c62_key_found",
    "Verif.Props.c62_label_found",
    "Verif.Props.c62_label_eq_str",
    "Verif.Props.c62_object_key_eq_str",
    "Verif.Props.c62_object_key_borrow",
    "Verif.Props.c62_object_key_contract",
    "Verif.Props.c62_object_key_hash_iff",
    "Verif.Props.c62_number_hash_iff",
    "Verif.Props.c62_object_key_borrow_hash",
    "Verif.Props.c62_object_key_not_found",
    "Verif.Props.c62_object_key_lookup",
    "Verif.Props.c62_number_hash",
    "Verif.Props.c62_equal_numbers_hash_differently",
    "Verif.Props.c62_owned_hash"
   ],
   "note": "Hash tables are modelled with buckets for an arbitrary hasher; object keys do not satisfy the Borrow contract (proved negatively)."
  },
  {
   "property": "C63",
   "status": "proved",
   "theorems": [
    "Verif.Props.c63_text",
    "Verif.Props.c63_is_float",
    "Verif.Props.c63_parses_back",
    "Verif.Props.c63_integral",
    "Verif.Props.c63_words",
    "Verif.Props.c63_huge"
   ],
   "note": "Float formatting is a parameter with the documented shape of `to_string` (ShowsFloats)."
  },
  {
   "property": "C64",
   "status": "proved",
   "theorems": [
    "Verif.Props.c64_get_mut_is_get",
    "Verif.Props.c64_get_mut_write",
    "Verif.Props.c64_get_mut_flat_iter",
    "Verif.Props.c64_blocks_get_mut_is_get",
    "Verif.Props.c64_blocks_get_mut_write",
    "Verif.Props.c64_flat_iter_mut",
    "Verif.Props.c64_blocks_flat_iter_mut",
    "Verif.Props.c64_flat_iter_mut_get",
    "Verif.Props.c64_iter_mut",
    "Verif.Props.c64_iter_mut_get",
    "Verif.Props.c64_as_cow",
    "Verif.Props.c64_flat_into_iter",
    "Verif.Props.c64_blocks_flat_into_iter",
    "Verif.Props.c64_is_empty"
   ],
   "note": ""
  },
  {
   "property": "C65",
   "status": "proved",
   "theorems": [
    "Verif.Props.c65_new_block_is_read",
    "Verif.Props.c65_new_single_map_is_read",
    "Verif.Props.c65_constructed_is_parsed",
    "Verif.Props.c65_texts",
    "Verif.Props.c65_int_panics_iff",
    "Verif.Props.c65_body_element",
    "Verif.Props.c65_constructed_body",
    "Verif.Props.c65_one_line",
    "Verif.Props.c65_values_unmerged",
    "Verif.Props.c65_values_accessors",
    "Verif.Props.c65_values_contents",
    "Verif.Props.c65_ownership",
    "Verif.Props.c65_keys",
    "Verif.Props.c65_variant_name",
    "Verif.Props.c65_value_conversions",
    "Verif.Props.c65_value_conversions_injective"
   ],
   "note": "Float texts as in C63."
  },
  {
   "property": "C66",
   "status": "proved",
   "theorems": [
    "Verif.Props.c66_parsers_agree",
    "Verif.Props.c66_tree_determines_entries",
    "Verif.Props.c66_same_tree_same_entries",
    "Verif.Props.c66_merged",
    "Verif.Props.c66_common_documents"
   ],
   "note": "Agreement relation AgreeBody (Spec/Agree.lean) is stated on the two result types only, not on the grammars. CommonEntries in c66_common_documents restricts to what both grammars can express."
  },
  {
   "property": "C67",
   "status": "proved",
   "theorems": [
    "Verif.Props.c67_print_then_read",
    "Verif.Props.c67_parsed_is_writable",
    "Verif.Props.c67_reformat",
    "Verif.Props.c67_print_injective",
    "Verif.Props.c67_writers_exist"
   ],
   "note": "Number writers are parameters with stated requirements; c67_writers_exist shows they exist."
  },
  {
   "property": "C68",
   "status": "proved",
   "theorems": [
    "Verif.Props.c68_deserialized_is_read",
    "Verif.Props.c68_read_is_deserialized",
    "Verif.Props.c68_read_unique",
    "Verif.Props.c68_succeeds_iff",
    "Verif.Props.c68_from_str_succeeds_iff",
    "Verif.Props.c68_from_str_value",
    "Verif.Props.c68_from_str_parse_error",
    "Verif.Props.c68_from_str_outcomes",
    "Verif.Props.c68_leaf_not_body_or_block",
    "Verif.Props.c68_unit",
    "Verif.Props.c68_bool",
    "Verif.Props.c68_integer",
    "Verif.Props.c68_float",
    "Verif.Props.c68_float32",
    "Verif.Props.c68_string",
    "Verif.Props.c68_str",
    "Verif.Props.c68_char",
    "Verif.Props.c68_enum",
    "Verif.Props.c68_document_types"
   ],
   "note": "The rules (Spec/Reads.lean) mention no visitors, calls, fuel or hash order. Visitors of the standard types and derives are transcribed from serde 1.0.101 (trusted)."
  },
  {
   "property": "C69",
   "status": "proved",
   "theorems": [
    "Verif.Props.c69_alike",
    "Verif.Props.c69_both_or_neither",
    "Verif.Props.c69_alike_equivalence",
    "Verif.Props.c69_attribute_order",
    "Verif.Props.c69_regrouped",
    "Verif.Props.c69_block_types_order",
    "Verif.Props.c69_object_order",
    "Verif.Props.c69_ownership",
    "Verif.Props.c69_as_owned",
    "Verif.Props.c69_str_needs_borrowed",
    "Verif.Props.c69_reader",
    "Verif.Props.c69_from_str",
    "Verif.Props.c69_join_commutes",
    "Verif.Props.c69_same_equivalence",
    "Verif.Props.c69_block_order_matters",
    "Verif.Props.c69_same_integer",
    "Verif.Props.c69_same_float",
    "Verif.Props.c69_replace",
    "Verif.Props.c69_number_spelling",
    "Verif.Props.c69_string_spelling",
    "Verif.Props.c69_replace_text"
   ],
   "note": "Alike (Spec/Alike.lean) is the relation on syntax trees; proved for every type of the C68 universe."
  },
  {
   "property": "C70",
   "status": "proved",
   "theorems": [
    "Verif.Props.c70_values",
    "Verif.Props.c70_maps",
    "Verif.Props.c70_documents",
    "Verif.Props.c70_refl_iff",
    "Verif.Props.c70_map_refl_iff",
    "Verif.Props.c70_symm",
    "Verif.Props.c70_trans",
    "Verif.Props.c70_merged_never_unmerged",
    "Verif.Props.c70_hash_order",
    "Verif.Props.c70_as_owned",
    "Verif.Props.c70_map_as_owned",
    "Verif.Props.c70_merge",
    "Verif.Props.c70_merge_map",
    "Verif.Props.c70_reformat",
    "Verif.Props.c70_unmerge_shows_order"
   ],
   "note": "f64 == is a parameter (assumed symmetric/transitive only where stated). Hypothesis: hash maps have no key twice, proved for everything from_str returns and kept by merge."
  },
  {
   "property": "C71",
   "status": "proved",
   "theorems": [
    "Verif.Props.c71_every_layout_is_read",
    "Verif.Props.c71_layout_never_matters",
    "Verif.Props.c71_value_layout"
   ],
   "note": "Generative grammar Spec/OldLaid (texts built from entries with free layout); equivalence with the accepting grammar of C21 by induction both ways."
  },
  {
   "property": "C72",
   "status": "proved",
   "theorems": [
    "Verif.Props.c72_parse_str_calls_linear",
    "Verif.Props.c72_expression_parse_calls_linear",
    "Verif.Props.c72_counted_parsers",
    "Verif.Props.c72_calls_linear_at_any_depth",
    "Verif.Props.c72_calls_at_least_size"
   ],
   "note": ""
  },
  {
   "property": "C73",
   "status": "proved",
   "theorems": [
    "Verif.Props.c73_calls_at_least_size",
    "Verif.Props.c73_accepted_texts_linear",
    "Verif.Props.c73_refused_texts_exponential",
    "Verif.Props.c73_no_linear_bound",
    "Verif.Props.c73_counted_parser"
   ],
   "note": ""
  },
  {
   "property": "C74",
   "status": "proved",
   "theorems": [
    "Verif.Props.c74_expression_depth",
    "Verif.Props.c74_body_depth",
    "Verif.Props.c74_legacy_depth",
    "Verif.Props.c74_depth_unbounded"
   ],
   "note": "Depth is the number of nested calls of the recursive parser; the size of a stack frame, and so the overflow itself, is not modelled."
  },
  {
   "property": "C75",
   "status": "proved",
   "theorems": [
    "Verif.Props.c75_parse_str_invalid_escape",
    "Verif.Props.c75_expression_invalid_escape",
    "Verif.Props.c75_from_str_invalid_escape",
    "Verif.Props.c75_parse_str_generic_error",
    "Verif.Props.c75_expression_generic_error",
    "Verif.Props.c75_from_str_generic_error",
    "Verif.Props.c75_reported_text_follows_a_bad_backslash",
    "Verif.Props.c75_reported_text_unique",
    "Verif.Props.c75_no_invalid_escape_in_a_document"
   ],
   "note": "Exact characterisation of both error variants; depends on nom's return_error!/alt!/many0! not altering a Failure (trusted base)."
  },
  {
   "property": "C76",
   "status": "proved",
   "theorems": [
    "Verif.Props.c76_variant_is_printed_name",
    "Verif.Props.c76_message_identifies_error",
    "Verif.Props.c76_message_quotes",
    "Verif.Props.c76_value_error_messages",
    "Verif.Props.c76_de_message_identifies_error",
    "Verif.Props.c76_custom_message_can_look_like_any_error",
    "Verif.Props.c76_compat_keeps_the_error",
    "Verif.Props.c76_cli_message_identifies_error",
    "Verif.Props.c76_conversions_keep_the_cause",
    "Verif.Props.c76_wording",
    "Verif.Props.c76_de_wording",
    "Verif.Props.c76_cli_wording",
    "Verif.Props.c76_value_wording",
    "Verif.Props.c76_de_parser_error"
   ],
   "note": ""
  },
  {
   "property": "C77",
   "status": "proved",
   "theorems": [
    "Verif.Props.c77_same_text_iff",
    "Verif.Props.c77_output_determines_value",
    "Verif.Props.c77_strings_are_literals",
    "Verif.Props.c77_literal_unique",
    "Verif.Props.c77_printable_as_written",
    "Verif.Props.c77_printed_is_printable",
    "Verif.Props.c77_prints_a_term",
    "Verif.Props.c77_output_is_a_term"
   ],
   "note": "std's Debug builders are transcribed; the table of printable characters, the escapes of ' and NUL, and the text of floats are parameters. That a float's text determines it (Rust prints the shortest text that reads back) is a hypothesis."
  },
  {
   "property": "C78",
   "status": "proved",
   "theorems": [
    "Verif.Props.c78_written_is_read",
    "Verif.Props.c78_writer_exists",
    "Verif.Props.c78_read_is_expressible",
    "Verif.Props.c78_read_is_document",
    "Verif.Props.c78_values",
    "Verif.Props.c78_load_save_load",
    "Verif.Props.c78_no_large_integer",
    "Verif.Props.c78_no_some_none"
   ],
   "note": ""
  },
  {
   "property": "C79",
   "status": "proved",
   "theorems": [
    "Verif.Props.c79_len_scalar",
    "Verif.Props.c79_len_scalar_order",
    "Verif.Props.c79_is_empty_scalar",
    "Verif.Props.c79_is_merged",
    "Verif.Props.c79_is_unmerged",
    "Verif.Props.c79_both",
    "Verif.Props.c79_as_owned",
    "Verif.Props.c79_values",
    "Verif.Props.c79_default_merge_behaviour"
   ],
   "note": ""
  },
  {
   "property": "C80",
   "status": "proved",
   "theorems": [
    "Verif.Props.c80_only_declared_entries",
    "Verif.Props.c80_undeclared_attribute",
    "Verif.Props.c80_undeclared_block_at_end",
    "Verif.Props.c80_labelled_block_panics",
    "Verif.Props.c80_new_optional_field",
    "Verif.Props.c80_required_field",
    "Verif.Props.c80_removed_field",
    "Verif.Props.c80_block_in_run_matters"
   ],
   "note": ""
  },
  {
   "property": "C81",
   "status": "proved",
   "theorems": [
    "Verif.Props.c81_block",
    "Verif.Props.c81_line_end",
    "Verif.Props.c81_document_in_block",
    "Verif.Props.c81_lines",
    "Verif.Props.c81_attribute",
    "Verif.Props.c81_value_alone",
    "Verif.Props.c81_tuple",
    "Verif.Props.c81_object",
    "Verif.Props.c81_parentheses",
    "Verif.Props.c81_legacy_line_end",
    "Verif.Props.c81_legacy_lines",
    "Verif.Props.c81_legacy_in_block",
    "Verif.Props.c81_legacy_in_map",
    "Verif.Props.c81_legacy_in_object",
    "Verif.Props.c81_legacy_block",
    "Verif.Props.c81_legacy_map",
    "Verif.Props.c81_legacy_object"
   ],
   "note": "The iff for blocks needs the text on lines of its own; a block whose only line is an attribute is a different form."
  },
  {
   "property": "C82",
   "status": "proved",
   "theorems": [
    "Verif.Props.c82_crlf_is_read",
    "Verif.Props.c82_crlf_same_tree",
    "Verif.Props.c82_mixed_line_ends",
    "Verif.Props.c82_accepted_iff",
    "Verif.Props.c82_expression",
    "Verif.Props.c82_legacy_crlf_is_read",
    "Verif.Props.c82_legacy_crlf_same_values",
    "Verif.Props.c82_legacy_mixed_line_ends"
   ],
   "note": "The restriction to documents without indented heredocs in the converse is necessary: an example is given of one that aborts with LF and is read with CR LF."
  },
  {
   "property": "C83",
   "status": "proved",
   "theorems": [
    "Verif.Props.c83_document_in_front",
    "Verif.Props.c83_lines_in_front",
    "Verif.Props.c83_error_iff",
    "Verif.Props.c83_error_position",
    "Verif.Props.c83_error_splits",
    "Verif.Props.c83_position_behind_document",
    "Verif.Props.c83_legacy_lines_in_front",
    "Verif.Props.c83_legacy_position_behind_document",
    "Verif.Props.c83_legacy_document_in_front",
    "Verif.Props.c83_legacy_error_iff",
    "Verif.Props.c83_legacy_error_position",
    "Verif.Props.c83_legacy_error_splits"
   ],
   "note": "nom's exact!/eof! semantics trusted; the formatting of the message is nom's and not modelled"
  },
  {
   "property": "C84",
   "status": "proved",
   "theorems": [
    "Verif.Props.c84_texts_are_slices",
    "Verif.Props.c84_borrowed_is_part",
    "Verif.Props.c84_size",
    "Verif.Props.c84_deserialized_borrowed",
    "Verif.Props.c84_deserialized_texts",
    "Verif.Props.c84_legacy_texts_are_slices",
    "Verif.Props.c84_legacy_size",
    "Verif.Props.c84_slices_positions"
   ],
   "note": "parts are lists of characters of the input (an aliasing claim about addresses is not expressible in the model); the whole, fraction and exponent texts of a number are parts of its own text by C10"
  },
  {
   "property": "C85",
   "status": "proved",
   "theorems": [
    "Verif.Props.c85_legacy_value_begins",
    "Verif.Props.c85_legacy_one_value",
    "Verif.Props.c85_legacy_one_value_in_list",
    "Verif.Props.c85_legacy_entry_begins",
    "Verif.Props.c85_legacy_after_name",
    "Verif.Props.c85_legacy_after_quoted_key",
    "Verif.Props.c85_legacy_templates_are_text",
    "Verif.Props.c85_value_begins",
    "Verif.Props.c85_attribute_value_begins",
    "Verif.Props.c85_one_value",
    "Verif.Props.c85_nothing_follows_value",
    "Verif.Props.c85_one_value_in_tuple",
    "Verif.Props.c85_one_value_in_parentheses",
    "Verif.Props.c85_object_equals",
    "Verif.Props.c85_one_value_in_object",
    "Verif.Props.c85_element_begins",
    "Verif.Props.c85_after_name",
    "Verif.Props.c85_templates_are_text"
   ],
   "note": ""
  },
  {
   "property": "C86",
   "status": "proved",
   "theorems": [
    "Verif.Props.c86_crashes_iff",
    "Verif.Props.c86_never_hangs",
    "Verif.Props.c86_loop_ends_at_first_crash",
    "Verif.Props.c86_build_stops_iff",
    "Verif.Props.c86_build_proceeds_iff"
   ],
   "note": "That the fuzzers record a panic as a crash and end the process is part of afl.rs / honggfuzz-rs, which are not modelled; the messages of the build script are not modelled."
  },
  {
   "property": "C87",
   "status": "proved",
   "theorems": [
    "Verif.Props.c87_inline_comment",
    "Verif.Props.c87_hash_comment",
    "Verif.Props.c87_slash_comment",
    "Verif.Props.c87_line_comment",
    "Verif.Props.c87_line_comment_refuses_slashes",
    "Verif.Props.c87_inline_whitespace",
    "Verif.Props.c87_whitespace",
    "Verif.Props.c87_whitespace_never_fails",
    "Verif.Props.c87_newline",
    "Verif.Props.c87_identifier",
    "Verif.Props.c87_boolean",
    "Verif.Props.c87_null",
    "Verif.Props.c87_number",
    "Verif.Props.c87_string_literal",
    "Verif.Props.c87_heredoc_begin",
    "Verif.Props.c87_heredoc_end",
    "Verif.Props.c87_heredoc_string",
    "Verif.Props.c87_string",
    "Verif.Props.c87_expression",
    "Verif.Props.c87_tuple",
    "Verif.Props.c87_object",
    "Verif.Props.c87_object_element_identifier",
    "Verif.Props.c87_object_element",
    "Verif.Props.c87_object_braces",
    "Verif.Props.c87_object_separator",
    "Verif.Props.c87_bracket_expression",
    "Verif.Props.c87_attribute",
    "Verif.Props.c87_block_label",
    "Verif.Props.c87_block_labels",
    "Verif.Props.c87_one_line_block_body",
    "Verif.Props.c87_one_line_block",
    "Verif.Props.c87_block",
    "Verif.Props.c87_body_element",
    "Verif.Props.c87_body",
    "Verif.Props.c87_body_iff"
   ],
   "note": "Error versus Incomplete as the kind of failure: C95. body is characterised from both sides when what follows does not begin with a name; block_labels when what follows is not a quote (otherwise the unreadable label may be an error that stops the whole parser). DEFECT found: line_comment is hash_comment | hash_comment."
  },
  {
   "property": "C88",
   "status": "proved",
   "theorems": [
    "Verif.Props.c88_failures",
    "Verif.Props.c88_outcomes",
    "Verif.Props.c88_reads_xor_fails",
    "Verif.Props.c88_expression",
    "Verif.Props.c88_no_blocks",
    "Verif.Props.c88_from_str",
    "Verif.Props.c88_repeated_attribute",
    "Verif.Props.c88_first_attribute",
    "Verif.Props.c88_missing_field",
    "Verif.Props.c88_failure_depends_on_order"
   ],
   "note": ""
  },
  {
   "property": "C89",
   "status": "proved",
   "theorems": [
    "Verif.Props.c89_value_in_place",
    "Verif.Props.c89_expression_in_place",
    "Verif.Props.c89_value_in_expression",
    "Verif.Props.c89_elements_in_place",
    "Verif.Props.c89_elements_removed",
    "Verif.Props.c89_elements_inserted",
    "Verif.Props.c89_legacy_value_in_place",
    "Verif.Props.c89_legacy_entries_in_place"
   ],
   "note": ""
  },
  {
   "property": "C90",
   "status": "proved",
   "theorems": [
    "Verif.Props.c90_map",
    "Verif.Props.c90_map_succeeds_iff",
    "Verif.Props.c90_struct",
    "Verif.Props.c90_struct_succeeds_iff",
    "Verif.Props.c90_undeclared",
    "Verif.Props.c90_map_attribute",
    "Verif.Props.c90_struct_attribute",
    "Verif.Props.c90_vec_item",
    "Verif.Props.c90_object_map",
    "Verif.Props.c90_object_struct",
    "Verif.Props.c90_anywhere",
    "Verif.Props.c90_anywhere_in_expression",
    "Verif.Props.c90_text_anywhere",
    "Verif.Props.c90_text_map",
    "Verif.Props.c90_text_struct",
    "Verif.Props.c90_text_struct_attribute"
   ],
   "note": "Values read from the old and the new document are compared as results of deserialize; c90_anywhere is the statement for every depth and type."
  },
  {
   "property": "C91",
   "status": "proved",
   "theorems": [
    "Verif.Props.c91_expression_value",
    "Verif.Props.c91_readable",
    "Verif.Props.c91_skipped",
    "Verif.Props.c91_body",
    "Verif.Props.c91_blocks",
    "Verif.Props.c91_determines",
    "Verif.Props.c91_determined",
    "Verif.Props.c91_replace",
    "Verif.Props.c91_there_and_back",
    "Verif.Props.c91_not_for_blocks"
   ],
   "note": "The visitor is that of a value type that accepts every visit_* call and keeps maps in the order given (as serde_json::Value with preserve_order)."
  },
  {
   "property": "C92",
   "status": "proved",
   "theorems": [
    "Verif.Props.c92_cut_off",
    "Verif.Props.c92_legacy_cut_off",
    "Verif.Props.c92_between_tokens",
    "Verif.Props.c92_complete_iff",
    "Verif.Props.c92_all_but_last",
    "Verif.Props.c92_legacy_between_tokens",
    "Verif.Props.c92_legacy_complete_iff",
    "Verif.Props.c92_legacy_all_but_last",
    "Verif.Props.c92_bytes_cut_off",
    "Verif.Props.c92_reader_cut_off"
   ],
   "note": ""
  },
  {
   "property": "C93",
   "status": "proved",
   "theorems": [
    "Verif.Props.c93_name_in_place",
    "Verif.Props.c93_attribute_renamed",
    "Verif.Props.c93_block_renamed",
    "Verif.Props.c93_key_in_place",
    "Verif.Props.c93_legacy_name_in_place",
    "Verif.Props.c93_bytes_name_in_place",
    "Verif.Props.c93_any_string",
    "Verif.Props.c93_string_once"
   ],
   "note": ""
  },
  {
   "property": "C94",
   "status": "proved",
   "theorems": [
    "Verif.Props.c94_parse_str_local",
    "Verif.Props.c94_expression_local",
    "Verif.Props.c94_from_str_local",
    "Verif.Props.c94_slice_local",
    "Verif.Props.c94_reader_local",
    "Verif.Props.c94_deserialize_local",
    "Verif.Props.c94_ascii",
    "Verif.Props.c94_later_parse_str",
    "Verif.Props.c94_later_expression",
    "Verif.Props.c94_later_from_str",
    "Verif.Props.c94_later_deserialize",
    "Verif.Props.c94_versions_never_disagree",
    "Verif.Props.c94_versions_never_disagree_expression",
    "Verif.Props.c94_versions_never_disagree_from_str"
   ],
   "note": ""
  },
  {
   "property": "C95",
   "status": "proved",
   "theorems": [
    "Verif.Props.c95_incomplete_or_same",
    "Verif.Props.c95_layout_never",
    "Verif.Props.c95_values_never",
    "Verif.Props.c95_comments_iff",
    "Verif.Props.c95_heredoc_begin_iff",
    "Verif.Props.c95_heredoc_end_iff",
    "Verif.Props.c95_string_iff",
    "Verif.Props.c95_final_newline"
   ],
   "note": ""
  },
  {
   "property": "C96",
   "status": "proved",
   "theorems": [
    "Verif.Props.c96_tuple",
    "Verif.Props.c96_text",
    "Verif.Props.c96_other",
    "Verif.Props.c96_text_kept",
    "Verif.Props.c96_vec",
    "Verif.Props.c96_no_panic",
    "Verif.Props.c96_every_buffer"
   ],
   "note": ""
  },
  {
   "property": "C97",
   "status": "proved",
   "theorems": [
    "Verif.Props.c97_key",
    "Verif.Props.c97_map",
    "Verif.Props.c97_failure",
    "Verif.Props.c97_other_keys",
    "Verif.Props.c97_no_key_type",
    "Verif.Props.c97_same_outcome",
    "Verif.Props.c97_no_overwrite",
    "Verif.Props.c97_key_first",
    "Verif.Props.c97_which_failure_object",
    "Verif.Props.c97_which_failure_body",
    "Verif.Props.c97_terminates",
    "Verif.Props.c97_from_str"
   ],
   "note": ""
  },
  {
   "property": "C98",
   "status": "proved",
   "theorems": [
    "Verif.Props.c98_body",
    "Verif.Props.c98_object",
    "Verif.Props.c98_by_position",
    "Verif.Props.c98_other",
    "Verif.Props.c98_deny_unknown_fields",
    "Verif.Props.c98_first_failure",
    "Verif.Props.c98_without_attributes",
    "Verif.Props.c98_hash_order",
    "Verif.Props.c98_order",
    "Verif.Props.c98_new_field",
    "Verif.Props.c98_alias",
    "Verif.Props.c98_terminates",
    "Verif.Props.c98_from_str",
    "Verif.Props.c98_block"
   ],
   "note": "serde_derive's generated code is transcribed and trusted. #[serde(flatten)], #[serde(default)] on the container and #[serde(skip)] are not modelled. A Default function is a constant here."
  },
  {
   "property": "C99",
   "status": "proved",
   "theorems": [
    "Verif.Props.c99_legacy_steps_per_call",
    "Verif.Props.c99_legacy_accepted_steps",
    "Verif.Props.c99_legacy_refused_exponential",
    "Verif.Props.c99_calls_are_steps",
    "Verif.Props.c99_legacy_counted_parser",
    "Verif.Props.c99_legacy_accepted_texts_are_read",
    "Verif.Props.c99_expression_steps",
    "Verif.Props.c99_parse_str_steps",
    "Verif.Props.c99_steps_per_call",
    "Verif.Props.c99_counted_parsers",
    "Verif.Props.c99_accepted_texts_are_read"
   ],
   "note": "Upper bounds with crude constants: measured counts are close to linear. Comparison with a tag counts as all its characters."
  },
  {
   "property": "C100",
   "status": "proved",
   "theorems": [
    "Verif.Props.c100_document_closed",
    "Verif.Props.c100_expression_closed",
    "Verif.Props.c100_legacy_closed",
    "Verif.Props.c100_one_reading",
    "Verif.Props.c100_unclosed_iff",
    "Verif.Props.c100_unclosed_refused",
    "Verif.Props.c100_missing_bracket",
    "Verif.Props.c100_wrong_bracket",
    "Verif.Props.c100_unclosed_string",
    "Verif.Props.c100_unclosed_comment"
   ],
   "note": ""
  },
  {
   "property": "C101",
   "status": "proved",
   "theorems": [
    "Verif.Props.c101_same_text_iff",
    "Verif.Props.c101_same_expression_iff",
    "Verif.Props.c101_same_number_iff",
    "Verif.Props.c101_same_blocks_iff",
    "Verif.Props.c101_owned_copy",
    "Verif.Props.c101_text_is_a_term",
    "Verif.Props.c101_expression_is_a_term",
    "Verif.Props.c101_same_text_iff_owned",
    "Verif.Props.c101_same_text_same_equality",
    "Verif.Props.c101_same_text_read_alike",
    "Verif.Props.c101_documents"
   ],
   "note": ""
  },
  {
   "property": "C102",
   "status": "proved",
   "theorems": [
    "Verif.Props.c102_body_text",
    "Verif.Props.c102_expression_text",
    "Verif.Props.c102_number_text",
    "Verif.Props.c102_blocks_text",
    "Verif.Props.c102_value_text",
    "Verif.Props.c102_map_text",
    "Verif.Props.c102_literals",
    "Verif.Props.c102_same_body_iff",
    "Verif.Props.c102_same_expression_iff",
    "Verif.Props.c102_same_number_iff",
    "Verif.Props.c102_same_blocks_iff",
    "Verif.Props.c102_same_map_iff",
    "Verif.Props.c102_one_line",
    "Verif.Props.c102_map_one_line",
    "Verif.Props.c102_owned_copy"
   ],
   "note": ""
  },
  {
   "property": "C103",
   "status": "proved",
   "theorems": [
    "Verif.Props.c103_block",
    "Verif.Props.c103_block_body",
    "Verif.Props.c103_blocks",
    "Verif.Props.c103_hash_order",
    "Verif.Props.c103_hash_order_body",
    "Verif.Props.c103_refl",
    "Verif.Props.c103_refl_body",
    "Verif.Props.c103_symm",
    "Verif.Props.c103_same_history",
    "Verif.Props.c103_flat_iter",
    "Verif.Props.c103_get",
    "Verif.Props.c103_append",
    "Verif.Props.c103_extend",
    "Verif.Props.c103_new",
    "Verif.Props.c103_documents",
    "Verif.Props.c103_trans",
    "Verif.Props.c103_trans_body"
   ],
   "note": ""
  },
  {
   "property": "C104",
   "status": "proved",
   "theorems": [
    "Verif.Props.c104_text",
    "Verif.Props.c104_de_text",
    "Verif.Props.c104_cli_text",
    "Verif.Props.c104_text_identifies_error",
    "Verif.Props.c104_de_text_identifies_error",
    "Verif.Props.c104_cli_text_identifies_error"
   ],
   "note": ""
  },
  {
   "property": "C105",
   "status": "proved",
   "theorems": [
    "Verif.Props.c105_cut_config",
    "Verif.Props.c105_leaves",
    "Verif.Props.c105_required_leaves",
    "Verif.Props.c105_end_marker",
    "Verif.Props.c105_map",
    "Verif.Props.c105_not_if_scattered"
   ],
   "note": "Counterexample for scattered blocks: c105_not_if_scattered."
  },
  {
   "property": "C106",
   "status": "proved",
   "theorems": [
    "Verif.Props.c106_struct",
    "Verif.Props.c106_map",
    "Verif.Props.c106_attribute_in_both",
    "Verif.Props.c106_blocks_lost",
    "Verif.Props.c106_blocks_joined",
    "Verif.Props.c106_files"
   ],
   "note": ""
  },
  {
   "property": "C107",
   "status": "proved",
   "theorems": [
    "Verif.Props.c107_merged_form_exists_iff",
    "Verif.Props.c107_any_order",
    "Verif.Props.c107_same_keys",
    "Verif.Props.c107_parts_succeed_iff",
    "Verif.Props.c107_parts_result",
    "Verif.Props.c107_parts_error",
    "Verif.Props.c107_stages_go_on",
    "Verif.Props.c107_merged_form_unique",
    "Verif.Props.c107_same_result",
    "Verif.Props.c107_documents",
    "Verif.Props.c107_documents_equal"
   ],
   "note": ""
  },
  {
   "property": "C108",
   "status": "proved",
   "theorems": [
    "Verif.Props.c108_still_merges",
    "Verif.Props.c108_cut_off",
    "Verif.Props.c108_between_tokens",
    "Verif.Props.c108_plain_values",
    "Verif.Props.c108_blocks",
    "Verif.Props.c108_bytes_cut_off",
    "Verif.Props.c108_bytes_still_merge",
    "Verif.Props.c108_reader_cut_off"
   ],
   "note": ""
  }
 ]
}